import Verif.Lemmas.ParserSteps
import Verif.Props.Structure
/-! # Document building as growth of plain trees -/
namespace Rustla
open Spec Relation

/-- A child may be added to a parent while the data of the parent change: parent before, parent after, child. -/
inductive Adds : NodeType → NodeType → NodeType → Prop
  | plain (a b : NodeType)
      (h : plainData b = true ∨ b.kind = .ExternalHyperlinkTarget ∨ b.kind = .IndirectHyperlinkTarget) : Adds a a b
  | «section» (a : NodeType) (title : Str) (level : Nat) (style : SectionLineStyle)
      (h : a.kind = .Document ∨ ∃ l, asSection a = some l ∧ l < level) : Adds a a (.Section title level style)
  | question (p : Nat) (a b : NodeType) (h : questionPoints b = some p) : Adds a (addPoints p a) b
  | enumItem (a b : NodeType) (h : b.kind = .EnumeratedListItem) : Adds a (addItem a) b

/-- Changes of the data of a node on their own. -/
inductive Changes : NodeType → NodeType → Prop
  | answer (a : NodeType) (s : Str) : Changes a (addAnswer s a)
  | widths (a : NodeType) (n : Nat) : Changes a (setWidths n a)

/-- One step of document building, seen on the plain tree. -/
inductive Grow (t : TreeNode) : TreeNode → Prop
  | same : Grow t t
  | added (p : List Nat) (m new : TreeNode) (data : NodeType) (cs : List TreeNode) (hs : subtree? t p = some m)
      (hc : m.children = some cs) (hn : new.children = if new.kind.hasChildren then some [] else none)
      (ha : childIsAllowed m.kind new.kind = .ok true) (hw : Adds m.data data new.data) :
      Grow t (replaceAt t p ((m.setData data).setChildren (some (cs ++ [new]))))
  | changed (p : List Nat) (m : TreeNode) (data : NodeType) (hs : subtree? t p = some m) (hw : Changes m.data data) :
      Grow t (replaceAt t p (m.setData data))

theorem hyperref_data (d : DocTree) (data : NodeType) (h1 : data.kind ≠ .Footnote)
    (h2 : data.kind ≠ .FootnoteReference) : (d.hyperrefActions data).2.1 = data := by
  unfold DocTree.hyperrefActions
  simp only
  split
  · rfl
  · rfl
  · exact absurd rfl h1
  · exact absurd rfl h2
  all_goals rfl

theorem newData_of_kind {n : NodeType} (h1 : n.kind ≠ .AplusQuestionnaire) (h2 : n.kind ≠ .EnumeratedList) :
    newData n = true := by
  unfold newData; split
  · exact absurd rfl h1
  · exact absurd rfl h2
  · rfl

theorem hyperref_plainData (d : DocTree) {data : NodeType} (h : plainData data = true) :
    plainData (d.hyperrefActions data).2.1 = true := by
  have hk := DocTree.hyperref_kind d data
  by_cases h1 : data.kind = .Footnote
  · rw [h1] at hk
    unfold plainData
    rw [newData_of_kind (by rw [hk]; simp) (by rw [hk]; simp), hk]; rfl
  · by_cases h2 : data.kind = .FootnoteReference
    · rw [h2] at hk
      unfold plainData
      rw [newData_of_kind (by rw [hk]; simp) (by rw [hk]; simp), hk]; rfl
    · rw [hyperref_data d data h1 h2]; exact h

theorem pushFocus_shape {d d' : DocTree} {data : NodeType} (h : d.pushDataAndFocus data = .ok (true, d')) :
    ∃ cs ls cl i, d.tree.node.children = some cs ∧ childIsAllowed d.tree.node.kind data.kind = .ok true ∧
      Zipper.focusOnChild { d.tree with node := d.tree.node.setChildren (some (cs ++
        [TreeNode.new (d.hyperrefActions data).2.1 d.nodeCount ls cl])) } i = some d'.tree := by
  unfold DocTree.pushDataAndFocus at h
  simp only at h
  generalize hh : d.hyperrefActions data = ha at h
  obtain ⟨ls, data', d1⟩ := ha
  have e1 : d1.tree = d.tree := by have := DocTree.hyperref_tree d data; rw [hh] at this; exact this
  have e2 : d1.nodeCount = d.nodeCount := by have := DocTree.hyperref_nodeCount d data; rw [hh] at this; exact this
  have e5 : data'.kind = data.kind := by have := DocTree.hyperref_kind d data; rw [hh] at this; exact this
  generalize hc : d1.takeClasses = hcl at h
  obtain ⟨cl, d2⟩ := hcl
  have e3 : d2.tree = d.tree := by have := DocTree.takeClasses_tree d1; rw [hc] at this; rw [← e1]; exact this
  have e4 : d2.nodeCount = d.nodeCount := by have := DocTree.takeClasses_nodeCount d1; rw [hc] at this; rw [← e2]; exact this
  simp only [e3, e4] at h
  unfold Zipper.pushDataAndFocus at h
  cases hp : d.tree.pushChild (TreeNode.new data' d.nodeCount ls cl) with
  | error e => simp [hp, bind, Except.bind] at h
  | ok o =>
    cases o with
    | none => simp [hp, bind, Except.bind, pure, Except.pure] at h
    | some z1 =>
      simp only [hp, bind, Except.bind] at h
      obtain ⟨ha, cs, hcs, rfl⟩ := childIsAllowed_ok_of_push hp
      cases hl : Zipper.focusOnLastChild
          { d.tree with node := d.tree.node.setChildren (some (cs ++ [TreeNode.new data' d.nodeCount ls cl])) } with
      | error e => simp [hl] at h
      | ok o =>
        cases o with
        | none => simp [hl, pure, Except.pure] at h
        | some z =>
          simp only [hl, pure, Except.pure, Except.ok.injEq, Prod.mk.injEq, true_and] at h
          subst h
          unfold Zipper.focusOnLastChild at hl
          split at hl
          · simp at hl
          · simp at hl
          · simp only [Except.ok.injEq] at hl
            refine ⟨cs, ls, cl, _, hcs, ?_, hl⟩
            have : (TreeNode.new data' d.nodeCount ls cl).kind = data.kind := e5
            rw [← this]; exact ha

theorem push_shape {d d' : DocTree} {data : NodeType} {b : Bool} (h : d.pushData data = .ok (b, d')) :
    d'.tree = d.tree ∨ ∃ cs ls cl, d.tree.node.children = some cs ∧
      childIsAllowed d.tree.node.kind data.kind = .ok true ∧
      d'.tree = { d.tree with node := d.tree.node.setChildren (some (cs ++
        [TreeNode.new (d.hyperrefActions data).2.1 d.nodeCount ls cl])) } := by
  unfold DocTree.pushData at h
  simp only at h
  generalize hh : d.hyperrefActions data = ha at h
  obtain ⟨ls, data', d1⟩ := ha
  have e1 : d1.tree = d.tree := by have := DocTree.hyperref_tree d data; rw [hh] at this; exact this
  have e2 : d1.nodeCount = d.nodeCount := by have := DocTree.hyperref_nodeCount d data; rw [hh] at this; exact this
  have e5 : data'.kind = data.kind := by have := DocTree.hyperref_kind d data; rw [hh] at this; exact this
  generalize hc : d1.takeClasses = hcl at h
  obtain ⟨cl, d2⟩ := hcl
  have e3 : d2.tree = d.tree := by have := DocTree.takeClasses_tree d1; rw [hc] at this; rw [← e1]; exact this
  have e4 : d2.nodeCount = d.nodeCount := by have := DocTree.takeClasses_nodeCount d1; rw [hc] at this; rw [← e2]; exact this
  simp only [e3, e4, Zipper.pushData] at h
  cases hp : d.tree.pushChild (TreeNode.new data' d.nodeCount ls cl) with
  | error e => simp [hp, bind, Except.bind] at h
  | ok o =>
    cases o with
    | none =>
      simp only [hp, bind, Except.bind, pure, Except.pure, Except.ok.injEq, Prod.mk.injEq] at h
      obtain ⟨_, rfl⟩ := h
      exact .inl e3
    | some z1 =>
      obtain ⟨ha, cs, hcs, rfl⟩ := childIsAllowed_ok_of_push hp
      simp only [hp, bind, Except.bind, pure, Except.pure, Except.ok.injEq, Prod.mk.injEq] at h
      obtain ⟨_, rfl⟩ := h
      refine .inr ⟨cs, ls, cl, hcs, ?_, rfl⟩
      have : (TreeNode.new data' d.nodeCount ls cl).kind = data.kind := e5
      rw [← this]; exact ha

theorem pushNode_shape {d d' : DocTree} {data : NodeType} {b : Bool}
    (h1 : data.kind ≠ .Footnote) (h2 : data.kind ≠ .FootnoteReference)
    (h : d.pushChild (TreeNode.new data d.nodeCount none none) = .ok (b, d')) :
    d'.tree = d.tree ∨ ∃ cs ls, d.tree.node.children = some cs ∧
      childIsAllowed d.tree.node.kind data.kind = .ok true ∧
      d'.tree = { d.tree with node := d.tree.node.setChildren (some (cs ++
        [TreeNode.new data d.nodeCount ls none])) } := by
  unfold DocTree.pushChild at h
  simp only at h
  have hdata : (TreeNode.new data d.nodeCount none none).data = data := rfl
  rw [hdata] at h
  have e5 := hyperref_data d data h1 h2
  generalize hh : d.hyperrefActions data = ha at h
  obtain ⟨ls, data', d1⟩ := ha
  have e1 : d1.tree = d.tree := by have := DocTree.hyperref_tree d data; rw [hh] at this; exact this
  have e2 : d1.nodeCount = d.nodeCount := by have := DocTree.hyperref_nodeCount d data; rw [hh] at this; exact this
  rw [hh] at e5
  simp only at e5
  subst e5
  have hnode : ((TreeNode.new data' d.nodeCount none none).setData data').setRefnames ls =
    TreeNode.new data' d.nodeCount ls none := rfl
  simp only [e1, e2, hnode] at h
  cases hp : d.tree.pushChild (TreeNode.new data' d.nodeCount ls none) with
  | error e => simp [hp, bind, Except.bind] at h
  | ok o =>
    cases o with
    | none =>
      simp only [hp, bind, Except.bind, pure, Except.pure, Except.ok.injEq, Prod.mk.injEq] at h
      obtain ⟨_, rfl⟩ := h
      exact .inl e1
    | some z1 =>
      obtain ⟨ha, cs, hcs, rfl⟩ := childIsAllowed_ok_of_push hp
      simp only [hp, bind, Except.bind, pure, Except.pure, Except.ok.injEq, Prod.mk.injEq] at h
      obtain ⟨_, rfl⟩ := h
      exact .inr ⟨cs, ls, hcs, ha, rfl⟩

theorem quiet_tree {d d' : DocTree} (h : Quiet d d') : d'.tree = d.tree := by cases h <;> rfl

theorem quiets_tree {d d' : DocTree} (h : ReflTransGen Quiet d d') : d'.tree = d.tree := by
  induction h with
  | refl => rfl
  | tail _ h ih => rw [quiet_tree h, ih]

theorem focusOnParent_tree {d d' : DocTree} (h : d.focusOnParent = .ok d') : d.tree.parentOrSelf = .ok d'.tree := by
  unfold DocTree.focusOnParent at h
  cases hp : d.tree.parentOrSelf with
  | error e => simp [hp, bind, Except.bind] at h
  | ok z => simp [hp, bind, Except.bind, pure, Except.pure] at h; subst h; rfl

/-- An empty paragraph that is added and removed leaves the tree as it was. -/
theorem emptied_tree {d d1 d2 d3 : DocTree} {i : Nat} (h1 : d.pushDataAndFocus (.Paragraph i) = .ok (true, d1))
    (h2 : ReflTransGen Quiet d1 d2) (h3 : d2.focusOnParent = .ok d3) : d3.popChild.2.tree = d.tree := by
  obtain ⟨cs, ls, cl, j, hc, _, hf⟩ := pushFocus_shape h1
  have hp := focusOnParent_tree h3
  rw [quiets_tree h2] at hp
  have := Zipper.focusOnParent_focusOnChild hf
  unfold Zipper.parentOrSelf at hp
  simp only [this, bind, Except.bind, pure, Except.pure, Except.ok.injEq] at hp
  unfold DocTree.popChild TreeNode.popChild
  rw [← hp]
  simp only [TreeNode.children_setChildren, List.getLast?_append, List.getLast?_singleton, Option.some_or, Option.map_some,
    List.dropLast_concat]
  cases ht : d.tree with
  | mk node path =>
    rw [ht] at hc
    cases node with
    | mk a b c e f =>
      simp only [TreeNode.children] at hc
      subst hc
      rfl

theorem grow_focus {d d' : DocTree} {t : TreeNode} {data x : NodeType} (hd : IsDoc d.tree t)
    (hk : x.kind = d.sharedData.kind) (hw : Adds d.sharedData x ((d.setNodeData x).hyperrefActions data).2.1)
    (h : (d.setNodeData x).pushDataAndFocus data = .ok (true, d')) : ∃ t', IsDoc d'.tree t' ∧ Grow t t' := by
  obtain ⟨cs, ls, cl, i, hc, ha, hf⟩ := pushFocus_shape h
  have hc' : d.tree.node.children = some cs := by simpa [DocTree.setNodeData] using hc
  refine ⟨_, Zipper.isDoc_child hf (Zipper.isDoc_replace hd _), .added _ _ _ _ _ (Zipper.subtree_place hd) hc' ?_ ?_ hw⟩
  · exact new_children _ _ _ _
  · have : (TreeNode.new ((d.setNodeData x).hyperrefActions data).2.1 (d.setNodeData x).nodeCount ls cl).kind = data.kind :=
      DocTree.hyperref_kind _ _
    rw [this]
    have e : (d.setNodeData x).tree.node.kind = d.tree.node.kind := by simp [DocTree.setNodeData, hk]; rfl
    rw [e] at ha; exact ha

theorem setNodeData_self (d : DocTree) : d.setNodeData d.sharedData = d := by
  obtain ⟨a, b, ⟨⟨i, r, c, dd, ch⟩, p⟩, e, f, g, h⟩ := d; rfl

theorem setData_self (t : TreeNode) : t.setData t.data = t := by cases t; rfl

/-- Every step of document building grows the plain tree. -/
theorem build_grow {d d' : DocTree} {t : TreeNode} (hd : IsDoc d.tree t) (h : Build d d') :
    ∃ t', IsDoc d'.tree t' ∧ Grow t t' := by
  cases h with
  | quiet h => exact ⟨t, by rw [quiet_tree h]; exact hd, .same⟩
  | anonTarget => exact ⟨t, hd, .same⟩
  | push data hk h =>
    rcases push_shape h with h | ⟨cs, ls, cl, hc, ha, h⟩
    · exact ⟨t, by rw [h]; exact hd, .same⟩
    · refine ⟨_, by rw [h]; exact Zipper.isDoc_replace hd _, ?_⟩
      have := Grow.added (t := t) _ d.tree.node (TreeNode.new (d.hyperrefActions data).2.1 d.nodeCount ls cl)
        d.tree.node.data cs (Zipper.subtree_place hd) hc (new_children _ _ _ _)
        (by rw [show (TreeNode.new (d.hyperrefActions data).2.1 d.nodeCount ls cl).kind = data.kind from
          DocTree.hyperref_kind _ _]; exact ha) (.plain _ _ (.inl (hyperref_plainData d hk)))
      rw [setData_self] at this
      exact this
  | pushFocus data hk h =>
    rw [← setNodeData_self d] at h
    refine grow_focus hd rfl ?_ h
    rw [setNodeData_self]
    exact .plain _ _ (.inl (hyperref_plainData d hk))
  | pushNode data hk h =>
    have n1 : data.kind ≠ .Footnote := by rcases hk with h | h <;> rw [h] <;> simp
    have n2 : data.kind ≠ .FootnoteReference := by rcases hk with h | h <;> rw [h] <;> simp
    rcases pushNode_shape n1 n2 h with h | ⟨cs, ls, hc, ha, h⟩
    · exact ⟨t, by rw [h]; exact hd, .same⟩
    · refine ⟨_, by rw [h]; exact Zipper.isDoc_replace hd _, ?_⟩
      have := Grow.added (t := t) _ d.tree.node (TreeNode.new data d.nodeCount ls none)
        d.tree.node.data cs (Zipper.subtree_place hd) hc (new_children _ _ _ _) ha (.plain _ _ (.inr hk))
      rw [setData_self] at this
      exact this
  | parent h => exact ⟨t, Zipper.isDoc_parentOrSelf (focusOnParent_tree h) hd, .same⟩
  | openSection title style hf h =>
    rw [← setNodeData_self d] at h
    rw [setNodeData_self] at h
    have h' := h
    rw [← setNodeData_self d] at h'
    refine grow_focus hd rfl ?_ h'
    rw [setNodeData_self, hyperref_data d _ (by simp [DocTree.newSectionData, NodeType.kind])
      (by simp [DocTree.newSectionData, NodeType.kind])]
    exact .section _ _ _ _ hf
  | question p data hq h =>
    refine grow_focus hd (tame_addPoints p _).1 ?_ h
    rw [hyperref_data _ _ (by intro e; cases data <;> first | (cases hq; done) | cases e)
      (by intro e; cases data <;> first | (cases hq; done) | cases e)]
    exact .question p _ _ hq
  | enumItem data hk h =>
    refine grow_focus hd (tame_addItem _).1 ?_ h
    rw [hyperref_data _ _ (by rw [hk]; simp) (by rw [hk]; simp)]
    exact .enumItem _ _ hk
  | answer a => exact ⟨_, Zipper.isDoc_replace hd _, .changed _ _ _ (Zipper.subtree_place hd) (.answer _ a)⟩
  | widths n => exact ⟨_, Zipper.isDoc_replace hd _, .changed _ _ _ (Zipper.subtree_place hd) (.widths _ n)⟩
  | emptied i h1 h2 h3 => exact ⟨t, by rw [emptied_tree h1 h2 h3]; exact hd, .same⟩

/-- Any number of steps grow the plain tree. -/
theorem steps_grow {d d' : DocTree} {t : TreeNode} (hd : IsDoc d.tree t) (h : Steps d d') :
    ∃ t', IsDoc d'.tree t' ∧ ReflTransGen Grow t t' := by
  induction h with
  | refl => exact ⟨t, hd, .refl⟩
  | tail _ h ih =>
    obtain ⟨t1, e1, e2⟩ := ih
    obtain ⟨t2, e3, e4⟩ := build_grow e1 h
    exact ⟨t2, e3, e2.tail e4⟩

/-- Growth, or a change of data that keeps the kind, and sections as they are. -/
inductive LooseGrow (t : TreeNode) : TreeNode → Prop
  | grow {t' : TreeNode} (h : Grow t t') : LooseGrow t t'
  | fields (p : List Nat) (m : TreeNode) (data : NodeType) (hs : subtree? t p = some m) (hk : data.kind = m.kind)
      (hw : data.kind = .Section → data = m.data) : LooseGrow t (replaceAt t p (m.setData data))

theorem loose_grow {d d' : DocTree} {t : TreeNode} (hd : IsDoc d.tree t) (h : Loose d d') :
    ∃ t', IsDoc d'.tree t' ∧ LooseGrow t t' := by
  cases h with
  | build h => obtain ⟨t', h1, h2⟩ := build_grow hd h; exact ⟨t', h1, .grow h2⟩
  | refused data hk h => exact ⟨t, by rw [C15_refused_push_changes_nothing d d' data (.inr h)]; exact hd, .grow .same⟩
  | refusedNode data hk h =>
    refine ⟨t, ?_, .grow .same⟩
    unfold DocTree.pushChild at h
    simp only at h
    cases hp : (d.hyperrefActions (TreeNode.new data d.nodeCount none none).data).2.2.tree.pushChild
        (((TreeNode.new data d.nodeCount none none).setData
          (d.hyperrefActions (TreeNode.new data d.nodeCount none none).data).2.1).setRefnames
          (d.hyperrefActions (TreeNode.new data d.nodeCount none none).data).1) with
    | error e => simp only [hp, bind, Except.bind, reduceCtorEq] at h
    | ok o =>
      cases o with
      | none =>
        simp only [hp, bind, Except.bind, pure, Except.pure, Except.ok.injEq, Prod.mk.injEq] at h
        obtain ⟨_, rfl⟩ := h
        rw [DocTree.hyperref_tree]; exact hd
      | some z =>
        simp only [hp, bind, Except.bind, pure, Except.pure, Except.ok.injEq, Prod.mk.injEq, reduceCtorEq, false_and] at h
  | refusedSection title style h =>
    exact ⟨t, by rw [C15_refused_push_changes_nothing d d' _ (.inr h)]; exact hd, .grow .same⟩
  | fields data hk hs =>
    exact ⟨_, Zipper.isDoc_replace hd _, .fields _ _ _ (Zipper.subtree_place hd) hk hs⟩

theorem looseSteps_grow {d d' : DocTree} {t : TreeNode} (hd : IsDoc d.tree t) (h : LooseSteps d d') :
    ∃ t', IsDoc d'.tree t' ∧ ReflTransGen LooseGrow t t' := by
  induction h with
  | refl => exact ⟨t, hd, .refl⟩
  | tail _ h ih =>
    obtain ⟨t1, e1, e2⟩ := ih
    obtain ⟨t2, e3, e4⟩ := loose_grow e1 h
    exact ⟨t2, e3, e2.tail e4⟩

end Rustla
