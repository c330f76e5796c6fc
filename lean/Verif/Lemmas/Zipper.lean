import Verif.Model.Tree
/-! # Lemmas about the zipper: plain-tree semantics -/
namespace Rustla

theorem pushSwap_swapRemove {α : Type} (l : List α) (i : Nat) (h : i < l.length) :
    pushSwap (swapRemove l i) i l[i] = .ok l := by
  have hne : l ≠ [] := by intro e; simp [e] at h
  unfold swapRemove
  rw [List.getLast?_eq_some_getLast hne]
  simp only
  unfold pushSwap
  have hl : ((l.set i (l.getLast hne)).dropLast).length = l.length - 1 := by simp
  by_cases hi : i < l.length - 1
  · rw [dif_pos (by omega)]
    congr 1
    apply List.ext_getElem
    · simp; omega
    · intro j h1 h2
      by_cases hj : j < l.length - 1
      · rw [List.getElem_append_left (by simp; omega)]
        by_cases hij : i = j
        · subst hij; simp
        · simp [hij, List.getElem_dropLast]
      · have hj' : j = l.length - 1 := by omega
        subst hj'
        rw [List.getElem_append_right (by simp)]
        simp [List.getLast_eq_getElem, List.getElem_dropLast]
  · have hi' : i = l.length - 1 := by omega
    subst hi'
    rw [dif_neg (by omega), if_pos (by omega)]
    congr 1
    apply List.ext_getElem
    · simp; omega
    · intro j h1 h2
      by_cases hj : j < l.length - 1
      · rw [List.getElem_append_left (by simp; omega)]
        simp [List.getElem_dropLast, List.getElem_set]
        intro hc; omega
      · have hj' : j = l.length - 1 := by omega
        subst hj'
        rw [List.getElem_append_right (by simp)]
        simp

theorem swapRemove_length {α : Type} (l : List α) (i : Nat) : (swapRemove l i).length = l.length - 1 := by
  unfold swapRemove
  cases h : l.getLast? with
  | none => simp at h; simp [h]
  | some x => simp

/-- `pushSwap` succeeds exactly when the index is in range; the result then has the node at that index. -/
theorem pushSwap_ok {α : Type} (l : List α) (i : Nat) (x : α) (h : i ≤ l.length) :
    ∃ l', pushSwap l i x = .ok l' ∧ l'.length = l.length + 1 ∧ l'[i]? = some x ∧
      l'.Perm (x :: l) := by
  unfold pushSwap
  by_cases hi : i < l.length
  · rw [dif_pos hi]
    refine ⟨_, rfl, by simp, ?_, ?_⟩
    · rw [List.getElem?_append_left (by simpa using hi)]; simp [hi]
    · have e : l = l.take i ++ l[i] :: l.drop (i + 1) := by
        rw [← List.drop_eq_getElem_cons hi, List.take_append_drop]
      have e2 : l.set i x = l.take i ++ x :: l.drop (i + 1) := by
        rw [List.set_eq_take_append_cons_drop, if_pos hi]
      have main : ∀ (a b : List α) (y : α), (a ++ x :: b ++ [y]).Perm (x :: (a ++ y :: b)) := by
        intro a b y
        have : (a ++ x :: b ++ [y]).Perm (y :: (a ++ x :: b)) := List.perm_append_singleton y (a ++ x :: b)
        refine this.trans ?_
        have h1 : (a ++ x :: b).Perm (x :: (a ++ b)) := List.perm_middle
        have h2 : (a ++ y :: b).Perm (y :: (a ++ b)) := List.perm_middle
        exact ((h1.cons y).trans (List.Perm.swap x y _)).trans (h2.symm.cons x)
      have goal := main (l.take i) (l.drop (i + 1)) l[i]
      rw [← e, ← e2] at goal
      exact goal
  · have : i = l.length := by omega
    rw [dif_neg hi, if_pos this]
    subst this
    refine ⟨_, rfl, by simp, by simp, ?_⟩
    exact List.perm_append_singleton x l

theorem swapRemove_perm {α : Type} (l : List α) (i : Nat) (h : i < l.length) :
    l.Perm (l[i] :: swapRemove l i) := by
  have h1 := pushSwap_swapRemove l i h
  obtain ⟨l', e, _, _, hp⟩ := pushSwap_ok (swapRemove l i) i l[i] (by rw [swapRemove_length]; omega)
  rw [h1] at e
  cases e
  exact hp

@[simp] theorem TreeNode.children_setChildren (t : TreeNode) (c) : (t.setChildren c).children = c := by cases t; rfl
@[simp] theorem TreeNode.data_setChildren (t : TreeNode) (c) : (t.setChildren c).data = t.data := by cases t; rfl
@[simp] theorem TreeNode.kind_setChildren (t : TreeNode) (c) : (t.setChildren c).kind = t.kind := by cases t; rfl
@[simp] theorem TreeNode.id_setChildren (t : TreeNode) (c) : (t.setChildren c).id = t.id := by cases t; rfl
@[simp] theorem TreeNode.refnames_setChildren (t : TreeNode) (c) : (t.setChildren c).refnames = t.refnames := by cases t; rfl
@[simp] theorem TreeNode.setChildren_setChildren (t : TreeNode) (c c') :
    (t.setChildren c).setChildren c' = t.setChildren c' := by cases t; rfl
theorem TreeNode.setChildren_self (t : TreeNode) : t.setChildren t.children = t := by cases t; rfl
@[simp] theorem TreeNode.children_setData (t : TreeNode) (d) : (t.setData d).children = t.children := by cases t; rfl
@[simp] theorem TreeNode.data_setData (t : TreeNode) (d) : (t.setData d).data = d := by cases t; rfl
@[simp] theorem TreeNode.kind_setData (t : TreeNode) (d) : (t.setData d).kind = d.kind := by cases t; rfl
@[simp] theorem TreeNode.id_setData (t : TreeNode) (d) : (t.setData d).id = t.id := by cases t; rfl
@[simp] theorem TreeNode.children_setRefnames (t : TreeNode) (d) : (t.setRefnames d).children = t.children := by cases t; rfl
@[simp] theorem TreeNode.data_setRefnames (t : TreeNode) (d) : (t.setRefnames d).data = t.data := by cases t; rfl
@[simp] theorem TreeNode.kind_setRefnames (t : TreeNode) (d) : (t.setRefnames d).kind = t.kind := by cases t; rfl
@[simp] theorem TreeNode.id_setRefnames (t : TreeNode) (d) : (t.setRefnames d).id = t.id := by cases t; rfl

namespace Zipper

theorem focusOnChild_some {z z' : Zipper} {i : Nat} (h : z.focusOnChild i = some z') :
    ∃ cs, ∃ hi : i < cs.length, z.node.children = some cs ∧ z'.node = cs[i] ∧
      z'.path = (z.node.setChildren (some (swapRemove cs i)), i) :: z.path := by
  unfold focusOnChild at h
  split at h
  · rename_i cs hcs
    split at h
    · rename_i hi
      simp only [Option.some.injEq] at h
      subst h
      exact ⟨cs, hi, hcs, rfl, rfl⟩
    · simp at h
  · simp at h

/-- Going to a child and back is the identity. -/
theorem focusOnParent_focusOnChild {z z' : Zipper} {i : Nat} (h : z.focusOnChild i = some z') :
    z'.focusOnParent = .ok (some z) := by
  obtain ⟨cs, hi, hcs, hn, hp⟩ := focusOnChild_some h
  unfold focusOnParent
  rw [hp]
  simp only [TreeNode.children_setChildren, hn, pushSwap_swapRemove cs i hi]
  have : z.node.setChildren (some cs) = z.node := by rw [← hcs, TreeNode.setChildren_self]
  simp [this, bind, Except.bind]

theorem walkToRoot_focusOnParent {z z' : Zipper} (h : z.focusOnParent = .ok (some z')) :
    z.walkToRoot = z'.walkToRoot := by
  unfold focusOnParent at h
  split at h
  · simp at h
  · rename_i p i rest hpath
    split at h
    · simp at h
    · rename_i cs hcs
      cases hs : pushSwap cs i z.node with
      | error e => simp [hs, bind, Except.bind] at h
      | ok cs' =>
        simp only [hs, bind, Except.bind, Except.ok.injEq, Option.some.injEq] at h
        subst h
        simp only [walkToRoot, hpath, walkToRootAux, hcs, hs, bind, Except.bind]

theorem walkToRoot_focusOnChild {z z' : Zipper} {i : Nat} (h : z.focusOnChild i = some z') :
    z'.walkToRoot = z.walkToRoot := walkToRoot_focusOnParent (focusOnParent_focusOnChild h)

/-- Well-formed zippers: every ancestor has a child vector with room for the node that was taken out. -/
def WFPath : List (TreeNode × Nat) → Prop
  | [] => True
  | (p, i) :: rest => (∃ cs, p.children = some cs ∧ i ≤ cs.length) ∧ WFPath rest

/-- Well-formed zippers. -/
def WF (z : Zipper) : Prop := WFPath z.path

theorem WF.child {z z' : Zipper} {i : Nat} (hz : z.WF) (h : z.focusOnChild i = some z') : z'.WF := by
  obtain ⟨cs, hi, hcs, hn, hp⟩ := focusOnChild_some h
  unfold WF
  rw [hp]
  exact ⟨⟨_, TreeNode.children_setChildren _ _, by rw [swapRemove_length]; omega⟩, hz⟩

theorem WF.parent {z z' : Zipper} (hz : z.WF) (h : z.focusOnParent = .ok (some z')) : z'.WF := by
  unfold focusOnParent at h
  split at h
  · simp at h
  · rename_i p i rest hpath
    unfold WF at hz
    rw [hpath] at hz
    split at h
    · simp at h
    · rename_i cs hcs
      cases hs : pushSwap cs i z.node with
      | error e => simp [hs, bind, Except.bind] at h
      | ok cs' =>
        simp only [hs, bind, Except.bind, Except.ok.injEq, Option.some.injEq] at h
        subst h
        exact hz.2

/-- The parent of the focus of a well-formed zipper. -/
theorem WF.focusOnParent_ok {z : Zipper} (hz : z.WF) {p : TreeNode} {i : Nat} {rest : List (TreeNode × Nat)}
    (hp : z.path = (p, i) :: rest) :
    ∃ cs cs', p.children = some cs ∧ pushSwap cs i z.node = .ok cs' ∧ cs'[i]? = some z.node ∧
      z.focusOnParent = .ok (some ⟨p.setChildren (some cs'), rest⟩) := by
  unfold WF at hz
  rw [hp] at hz
  obtain ⟨⟨cs, hcs, hi⟩, _⟩ := hz
  obtain ⟨cs', e, _, hg, _⟩ := pushSwap_ok cs i z.node hi
  refine ⟨cs, cs', hcs, e, hg, ?_⟩
  simp [focusOnParent, hp, hcs, e, bind, Except.bind]

end Zipper

end Rustla
