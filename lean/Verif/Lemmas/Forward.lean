import Verif.Lemmas.Grow
/-! # What document building does when it succeeds: explicit results -/
namespace Rustla
open Spec

theorem TreeNode.pushChild_ok {t n : TreeNode} {cs : List TreeNode} (hc : t.children = some cs)
    (ha : childIsAllowed t.kind n.kind = .ok true) : t.pushChild n = .ok (some (t.setChildren (some (cs ++ [n])))) := by
  simp [TreeNode.pushChild, ha, hc, bind, Except.bind, pure, Except.pure]

/-- The section levels and the labels that wait for a node. -/
def DocTree.notes (d : DocTree) : SectionData × List Str := (d.sections, d.hyperref.accumulated)

/-- Pushing a permitted node succeeds. -/
theorem push_ok {d : DocTree} {data : NodeType} {cs : List TreeNode} (hc : d.tree.node.children = some cs)
    (ha : childIsAllowed d.tree.node.kind data.kind = .ok true) :
    ∃ cl d', d.pushData data = .ok (true, d') ∧ d'.nodeCount = d.nodeCount + 1 ∧
      d'.notes = (d.hyperrefActions data).2.2.notes ∧
      d'.tree = { d.tree with node := d.tree.node.setChildren (some (cs ++
        [TreeNode.new (d.hyperrefActions data).2.1 d.nodeCount (d.hyperrefActions data).1 cl])) } := by
  unfold DocTree.pushData
  simp only
  generalize hh : d.hyperrefActions data = ha'
  obtain ⟨ls, data', d1⟩ := ha'
  have e1 : d1.tree = d.tree := by have := DocTree.hyperref_tree d data; rw [hh] at this; exact this
  have e2 : d1.nodeCount = d.nodeCount := by have := DocTree.hyperref_nodeCount d data; rw [hh] at this; exact this
  have e5 : data'.kind = data.kind := by have := DocTree.hyperref_kind d data; rw [hh] at this; exact this
  generalize hc' : d1.takeClasses = hcl
  obtain ⟨cl, d2⟩ := hcl
  have e3 : d2.tree = d.tree := by have := DocTree.takeClasses_tree d1; rw [hc'] at this; rw [← e1]; exact this
  have e4 : d2.nodeCount = d.nodeCount := by have := DocTree.takeClasses_nodeCount d1; rw [hc'] at this; rw [← e2]; exact this
  have e6 : d2.notes = d1.notes := by
    unfold DocTree.takeClasses at hc'; split at hc' <;> (cases hc'; rfl)
  have hn : (TreeNode.new data' d.nodeCount ls cl).kind = data.kind := e5
  have hp : d.tree.node.pushChild (TreeNode.new data' d.nodeCount ls cl) =
      .ok (some (d.tree.node.setChildren (some (cs ++ [TreeNode.new data' d.nodeCount ls cl])))) :=
    TreeNode.pushChild_ok hc (by rw [hn]; exact ha)
  refine ⟨cl, { d2 with tree := { d.tree with node := d.tree.node.setChildren (some (cs ++
    [TreeNode.new data' d.nodeCount ls cl])) }, nodeCount := d.nodeCount + 1 }, ?_, rfl, e6, rfl⟩
  simp [e3, e4, Zipper.pushData, Zipper.pushChild, hp, bind, Except.bind, pure, Except.pure]

theorem swapRemove_last {α} (l : List α) (x : α) : swapRemove (l ++ [x]) l.length = l := by
  simp [swapRemove]

/-- Pushing a permitted node and focusing it succeeds. -/
theorem pushFocus_ok {d : DocTree} {data : NodeType} {cs : List TreeNode} (hc : d.tree.node.children = some cs)
    (ha : childIsAllowed d.tree.node.kind data.kind = .ok true) :
    ∃ cl d', d.pushDataAndFocus data = .ok (true, d') ∧ d'.nodeCount = d.nodeCount + 1 ∧
      d'.notes = (d.hyperrefActions data).2.2.notes ∧
      d'.tree = { node := TreeNode.new (d.hyperrefActions data).2.1 d.nodeCount (d.hyperrefActions data).1 cl,
                  path := (d.tree.node, cs.length) :: d.tree.path } := by
  unfold DocTree.pushDataAndFocus
  simp only
  generalize hh : d.hyperrefActions data = ha'
  obtain ⟨ls, data', d1⟩ := ha'
  have e1 : d1.tree = d.tree := by have := DocTree.hyperref_tree d data; rw [hh] at this; exact this
  have e2 : d1.nodeCount = d.nodeCount := by have := DocTree.hyperref_nodeCount d data; rw [hh] at this; exact this
  have e5 : data'.kind = data.kind := by have := DocTree.hyperref_kind d data; rw [hh] at this; exact this
  generalize hc' : d1.takeClasses = hcl
  obtain ⟨cl, d2⟩ := hcl
  have e3 : d2.tree = d.tree := by have := DocTree.takeClasses_tree d1; rw [hc'] at this; rw [← e1]; exact this
  have e4 : d2.nodeCount = d.nodeCount := by have := DocTree.takeClasses_nodeCount d1; rw [hc'] at this; rw [← e2]; exact this
  have e6 : d2.notes = d1.notes := by
    unfold DocTree.takeClasses at hc'; split at hc' <;> (cases hc'; rfl)
  have hn : (TreeNode.new data' d.nodeCount ls cl).kind = data.kind := e5
  have hp : d.tree.node.pushChild (TreeNode.new data' d.nodeCount ls cl) =
      .ok (some (d.tree.node.setChildren (some (cs ++ [TreeNode.new data' d.nodeCount ls cl])))) :=
    TreeNode.pushChild_ok hc (by rw [hn]; exact ha)
  refine ⟨cl, { d2 with
    tree := ⟨TreeNode.new data' d.nodeCount ls cl, (d.tree.node, cs.length) :: d.tree.path⟩
    nodeCount := d.nodeCount + 1 }, ?_, rfl, e6, rfl⟩
  have hf : Zipper.focusOnLastChild { d.tree with node := d.tree.node.setChildren (some (cs ++
      [TreeNode.new data' d.nodeCount ls cl])) } = .ok (some ⟨TreeNode.new data' d.nodeCount ls cl,
        (d.tree.node, cs.length) :: d.tree.path⟩) := by
    unfold Zipper.focusOnLastChild
    simp only [TreeNode.children_setChildren]
    have hset : ∀ x, (d.tree.node.setChildren x).setChildren (some cs) = d.tree.node := by
      intro x
      revert hc
      cases d.tree.node with | mk a b c e f => simp [TreeNode.setChildren, TreeNode.children]; intro h; exact h.symm
    cases h : cs ++ [TreeNode.new data' d.nodeCount ls cl] with
    | nil => simp at h
    | cons a as =>
      simp only
      have hl : as.length = cs.length := by have := congrArg List.length h; simp at this; omega
      rw [← h, hl]
      unfold Zipper.focusOnChild
      simp only [TreeNode.children_setChildren, List.length_append, List.length_singleton, Nat.lt_succ_self, dite_true]
      simp [swapRemove_last, hset]
  simp [e3, e4, Zipper.pushDataAndFocus, Zipper.pushChild, hp, hf, bind, Except.bind, pure, Except.pure]

/-- Leaving a node that was pushed last. -/
theorem focusOnParent_ok {d : DocTree} {p : TreeNode} {cs : List TreeNode} {rest : List (TreeNode × Nat)}
    (hp : d.tree.path = (p, cs.length) :: rest) (hc : p.children = some cs) :
    d.focusOnParent = .ok { d with tree := { node := p.setChildren (some (cs ++ [d.tree.node])), path := rest } } := by
  unfold DocTree.focusOnParent Zipper.parentOrSelf Zipper.focusOnParent
  simp [hp, hc, pushSwap, bind, Except.bind, pure, Except.pure]

end Rustla
