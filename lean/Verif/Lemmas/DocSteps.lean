import Verif.Lemmas.Doc
import Verif.Props.Zipper
/-! # Every operation is a step on the plain document -/
namespace Rustla
open Spec

theorem childIsAllowed_ok_of_push {z z' : Zipper} {n : TreeNode} (h : z.pushChild n = .ok (some z')) :
    childIsAllowed z.node.kind n.kind = .ok true ∧ ∃ cs, z.node.children = some cs ∧
      z' = { z with node := z.node.setChildren (some (cs ++ [n])) } := by
  unfold Zipper.pushChild TreeNode.pushChild at h
  cases ha : childIsAllowed z.node.kind n.kind with
  | error e => simp [ha, bind, Except.bind] at h
  | ok b =>
    cases b with
    | false => simp [ha, bind, Except.bind, pure, Except.pure] at h
    | true =>
      cases hc : z.node.children with
      | none => simp [ha, hc, bind, Except.bind, pure, Except.pure] at h
      | some cs =>
        simp [ha, hc, bind, Except.bind, pure, Except.pure] at h
        exact ⟨rfl, cs, rfl, h.symm⟩

theorem docStep_push {z z' : Zipper} {t n : TreeNode} {k : Nat} (hd : IsDoc z t)
    (hn : n.children = if n.kind.hasChildren then some [] else none) (hi : n.id = k)
    (h : z.pushChild n = .ok (some z')) : ∃ t', IsDoc z' t' ∧ DocStep t k t' (k + 1) := by
  obtain ⟨ha, cs, hc, rfl⟩ := childIsAllowed_ok_of_push h
  exact ⟨_, Zipper.isDoc_replace hd _, .added _ _ _ cs (Zipper.subtree_place hd) hc hn hi ha⟩

theorem new_children (data : NodeType) (id : Nat) (l c : Option (List Str)) :
    (TreeNode.new data id l c).children =
      if (TreeNode.new data id l c).kind.hasChildren then some [] else none := rfl

theorem docStep_pushAndFocus {z z' : Zipper} {t : TreeNode} {k : Nat} (data : NodeType) (l c : Option (List Str))
    (hd : IsDoc z t) (h : z.pushDataAndFocus data k l c = .ok (some z')) :
    ∃ t', IsDoc z' t' ∧ DocStep t k t' (k + 1) := by
  unfold Zipper.pushDataAndFocus at h
  cases hp : z.pushChild (TreeNode.new data k l c) with
  | error e => simp [hp, bind, Except.bind] at h
  | ok o =>
    cases o with
    | none => simp [hp, bind, Except.bind, pure, Except.pure] at h
    | some z1 =>
      simp only [hp, bind, Except.bind] at h
      obtain ⟨t', h1, h2⟩ := docStep_push hd (new_children _ _ _ _) rfl hp
      refine ⟨t', ?_, h2⟩
      unfold Zipper.focusOnLastChild at h
      split at h
      · simp at h
      · simp at h
      · simp only [Except.ok.injEq] at h
        exact Zipper.isDoc_child h h1

theorem docStep_pushData {d d' : DocTree} {t : TreeNode} {data : NodeType} {b : Bool} (hd : IsDoc d.tree t)
    (h : d.pushData data = .ok (b, d')) : ∃ t', IsDoc d'.tree t' ∧ DocStep t d.nodeCount t' d'.nodeCount := by
  unfold DocTree.pushData at h
  simp only [Zipper.pushData] at h
  generalize hh : d.hyperrefActions data = ha at h
  obtain ⟨ls, data', d1⟩ := ha
  have e1 : d1.tree = d.tree := by have := DocTree.hyperref_tree d data; rw [hh] at this; exact this
  have e2 : d1.nodeCount = d.nodeCount := by have := DocTree.hyperref_nodeCount d data; rw [hh] at this; exact this
  generalize hc : d1.takeClasses = hcl at h
  obtain ⟨cl, d2⟩ := hcl
  have e3 : d2.tree = d.tree := by have := DocTree.takeClasses_tree d1; rw [hc] at this; rw [← e1]; exact this
  have e4 : d2.nodeCount = d.nodeCount := by have := DocTree.takeClasses_nodeCount d1; rw [hc] at this; rw [← e2]; exact this
  simp only [e3, e4] at h
  cases hp : d.tree.pushChild (TreeNode.new data' d.nodeCount ls cl) with
  | error e => simp [hp, bind, Except.bind] at h
  | ok o =>
    cases o with
    | none =>
      simp [hp, bind, Except.bind, pure, Except.pure] at h
      obtain ⟨_, rfl⟩ := h
      exact ⟨t, by rw [e3]; exact hd, by rw [e4]; exact .same⟩
    | some z =>
      simp [hp, bind, Except.bind, pure, Except.pure] at h
      obtain ⟨_, rfl⟩ := h
      exact docStep_push hd (new_children _ _ _ _) rfl hp

theorem docStep_pushDataAndFocus {d d' : DocTree} {t : TreeNode} {data : NodeType} {b : Bool} (hd : IsDoc d.tree t)
    (h : d.pushDataAndFocus data = .ok (b, d')) : ∃ t', IsDoc d'.tree t' ∧ DocStep t d.nodeCount t' d'.nodeCount := by
  unfold DocTree.pushDataAndFocus at h
  simp only at h
  generalize hh : d.hyperrefActions data = ha at h
  obtain ⟨ls, data', d1⟩ := ha
  have e1 : d1.tree = d.tree := by have := DocTree.hyperref_tree d data; rw [hh] at this; exact this
  have e2 : d1.nodeCount = d.nodeCount := by have := DocTree.hyperref_nodeCount d data; rw [hh] at this; exact this
  generalize hc : d1.takeClasses = hcl at h
  obtain ⟨cl, d2⟩ := hcl
  have e3 : d2.tree = d.tree := by have := DocTree.takeClasses_tree d1; rw [hc] at this; rw [← e1]; exact this
  have e4 : d2.nodeCount = d.nodeCount := by have := DocTree.takeClasses_nodeCount d1; rw [hc] at this; rw [← e2]; exact this
  simp only [e3, e4] at h
  cases hp : d.tree.pushDataAndFocus data' d.nodeCount ls cl with
  | error e => simp [hp, bind, Except.bind] at h
  | ok o =>
    cases o with
    | none =>
      simp [hp, bind, Except.bind, pure, Except.pure] at h
      obtain ⟨_, rfl⟩ := h
      exact ⟨t, by rw [e3]; exact hd, by rw [e4]; exact .same⟩
    | some z =>
      simp [hp, bind, Except.bind, pure, Except.pure] at h
      obtain ⟨_, rfl⟩ := h
      exact docStep_pushAndFocus _ _ _ hd hp

theorem docStep_pushChild {d d' : DocTree} {t : TreeNode} {data : NodeType} {b : Bool} (hd : IsDoc d.tree t)
    (h : d.pushChild (TreeNode.new data d.nodeCount none none) = .ok (b, d')) :
    ∃ t', IsDoc d'.tree t' ∧ DocStep t d.nodeCount t' d'.nodeCount := by
  unfold DocTree.pushChild at h
  simp only at h
  generalize hh : d.hyperrefActions (TreeNode.new data d.nodeCount none none).data = ha at h
  obtain ⟨ls, data', d1⟩ := ha
  have e1 : d1.tree = d.tree := by have := DocTree.hyperref_tree d (TreeNode.new data d.nodeCount none none).data; rw [hh] at this; exact this
  have e2 : d1.nodeCount = d.nodeCount := by have := DocTree.hyperref_nodeCount d (TreeNode.new data d.nodeCount none none).data; rw [hh] at this; exact this
  simp only [e1, e2] at h
  cases hp : d.tree.pushChild (((TreeNode.new data d.nodeCount none none).setData data').setRefnames ls) with
  | error e => simp [hp, bind, Except.bind] at h
  | ok o =>
    cases o with
    | none =>
      simp [hp, bind, Except.bind, pure, Except.pure] at h
      obtain ⟨_, rfl⟩ := h
      exact ⟨t, by rw [e1]; exact hd, by rw [e2]; exact .same⟩
    | some z =>
      simp [hp, bind, Except.bind, pure, Except.pure] at h
      obtain ⟨_, rfl⟩ := h
      refine docStep_push hd ?_ ?_ hp
      · have hk : data'.kind = data.kind := by
          have := DocTree.hyperref_kind d (TreeNode.new data d.nodeCount none none).data
          rw [hh] at this; exact this
        simp only [TreeNode.children_setRefnames, TreeNode.children_setData, TreeNode.kind_setRefnames,
          TreeNode.kind_setData, hk]
        exact new_children data d.nodeCount none none
      · simp; rfl

/-- Every document-building operation that does not panic is a step on the plain document. -/
theorem docStep_run {d d' : DocTree} {t : TreeNode} {op : DocOp} (hd : IsDoc d.tree t) (h : op.run d = .ok d') :
    ∃ t', IsDoc d'.tree t' ∧ DocStep t d.nodeCount t' d'.nodeCount := by
  have unpair : ∀ {α : Type} {m : Run (α × DocTree)}, (do pure (← m).2 : Run DocTree) = .ok d' →
      ∃ b, m = .ok (b, d') := by
    intro α m hm
    cases m with
    | error e => simp [bind, Except.bind] at hm
    | ok x => obtain ⟨b, y⟩ := x; simp [bind, Except.bind, pure, Except.pure] at hm; subst hm; exact ⟨b, rfl⟩
  cases op with
  | push data => obtain ⟨b, hb⟩ := unpair h; exact docStep_pushData hd hb
  | pushAndFocus data => obtain ⟨b, hb⟩ := unpair h; exact docStep_pushDataAndFocus hd hb
  | pushNode data => obtain ⟨b, hb⟩ := unpair h; exact docStep_pushChild hd hb
  | pop =>
    simp only [DocOp.run, pure, Except.pure, Except.ok.injEq] at h
    subst h
    unfold DocTree.popChild TreeNode.popChild
    cases hc : d.tree.node.children with
    | none => exact ⟨t, hd, .same⟩
    | some cs =>
      simp only
      cases hl : cs.getLast? with
      | none => exact ⟨t, hd, .same⟩
      | some c => exact ⟨_, Zipper.isDoc_replace hd _, .removed _ _ cs (Zipper.subtree_place hd) hc⟩
  | parent =>
    simp only [DocOp.run, DocTree.focusOnParent] at h
    cases hp : d.tree.parentOrSelf with
    | error e => simp [hp, bind, Except.bind] at h
    | ok z =>
      simp [hp, bind, Except.bind, pure, Except.pure] at h
      subst h
      exact ⟨t, Zipper.isDoc_parentOrSelf hp hd, .same⟩
  | root =>
    simp only [DocOp.run, DocTree.walkToRoot] at h
    cases hp : d.tree.walkToRoot with
    | error e => simp [hp, bind, Except.bind] at h
    | ok z =>
      simp [hp, bind, Except.bind, pure, Except.pure] at h
      subst h
      exact ⟨t, isDoc_root hp hd, .same⟩
  | findId id =>
    simp only [DocOp.run] at h
    by_cases hid : id ≤ d.nodeCount
    · obtain ⟨d2, h1, h2, _⟩ := C18_walk_by_id d t hd id hid
      rw [h1] at h; cases h
      refine ⟨t, h2, ?_⟩
      unfold DocTree.walkToId at h1
      have hr : d.tree.walkToRoot = .ok ⟨t, []⟩ := hd
      simp only [hr, bind, Except.bind] at h1
      rw [if_neg (by omega)] at h1
      cases hw : Zipper.walkToNodeWithId id (t.height + 1) ⟨t, []⟩ with
      | error e => simp [hw] at h1
      | ok x => simp [hw, pure, Except.pure] at h1; subst h1; exact .same
    · rw [C18_unknown_id_panics d t hd id (by omega)] at h; simp at h
  | toSection level =>
    simp only [DocOp.run, DocTree.walkToParentSectionLevel] at h
    obtain ⟨z', h1, h2, _⟩ := C19_walk_to_section d.tree t hd level
    simp [h1, bind, Except.bind, pure, Except.pure] at h
    subst h
    exact ⟨t, h2, .same⟩
  | «section» title style => obtain ⟨b, hb⟩ := unpair h; exact docStep_pushData hd hb
  | sectionAndFocus title style => obtain ⟨b, hb⟩ := unpair h; exact docStep_pushDataAndFocus hd hb
  | internalTarget l => simp only [DocOp.run, pure, Except.pure, Except.ok.injEq] at h; subst h; exact ⟨t, hd, .same⟩
  | anonTarget => simp only [DocOp.run, pure, Except.pure, Except.ok.injEq] at h; subst h; exact ⟨t, hd, .same⟩
  | anonReference => simp only [DocOp.run, pure, Except.pure, Except.ok.injEq] at h; subst h; exact ⟨t, hd, .same⟩
  | addClass c => simp only [DocOp.run, pure, Except.pure, Except.ok.injEq] at h; subst h; exact ⟨t, hd, .same⟩
  | setFields data =>
    simp only [DocOp.run] at h
    split at h
    · rename_i hk
      simp only [pure, Except.pure, Except.ok.injEq] at h; subst h
      exact ⟨_, Zipper.isDoc_replace hd _, .changed _ _ _ (Zipper.subtree_place hd) hk⟩
    · simp only [pure, Except.pure, Except.ok.injEq] at h; subst h; exact ⟨t, hd, .same⟩

/-- An invariant of plain documents that every step keeps holds in every document that can be built. -/
theorem reachable_invariant (Inv : TreeNode → Nat → Prop) (h0 : Inv (TreeNode.new .Document 0 none none) 1)
    (hs : ∀ t n t' n', Inv t n → DocStep t n t' n' → Inv t' n') {d : DocTree} (hr : Reachable d) :
    ∃ t, IsDoc d.tree t ∧ Inv t d.nodeCount := by
  obtain ⟨stem, folder, ops, h⟩ := hr
  have key : ∀ (ops : List DocOp) (d0 : DocTree) (t : TreeNode), IsDoc d0.tree t → Inv t d0.nodeCount →
      DocOp.runAll d0 ops = .ok d → ∃ t, IsDoc d.tree t ∧ Inv t d.nodeCount := by
    intro ops
    induction ops with
    | nil => intro d0 t hd hi h; simp [DocOp.runAll, pure, Except.pure] at h; subst h; exact ⟨t, hd, hi⟩
    | cons op ops ih =>
      intro d0 t hd hi h
      simp only [DocOp.runAll] at h
      cases ho : op.run d0 with
      | error e => simp [ho, bind, Except.bind] at h
      | ok d1 =>
        simp only [ho, bind, Except.bind] at h
        obtain ⟨t1, h1, h2⟩ := docStep_run hd ho
        exact ih d1 t1 h1 (hs _ _ _ _ hi h2) h
  exact key ops (DocTree.new stem folder) (TreeNode.new .Document 0 none none) rfl h0 h

end Rustla
