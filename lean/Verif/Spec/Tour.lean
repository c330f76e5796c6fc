import Verif.Spec.Tree
/-! # A walk around a document: every node is entered, its children are toured from first to last, and it is left. -/
namespace Rustla.Spec

/-- A visit of a node. -/
inductive Visit where
  | enter (n : TreeNode)
  | leave (n : TreeNode)

mutual
/-- The walk around a tree. -/
def tour : TreeNode → List Visit
  | .mk i r c d cs => .enter (.mk i r c d cs) :: ((match cs with
    | none => []
    | some l => tours l) ++ [.leave (.mk i r c d cs)])
/-- The walk around the trees of a list. -/
def tours : List TreeNode → List Visit
  | [] => []
  | t :: ts => tour t ++ tours ts
end

/-- The nodes that are entered, in order. -/
def entered (vs : List Visit) : List TreeNode := vs.filterMap fun
  | .enter n => some n
  | .leave _ => none

/-- The nodes that are left, in order. -/
def departed (vs : List Visit) : List TreeNode := vs.filterMap fun
  | .enter _ => none
  | .leave n => some n

mutual
/-- A walk enters every node once, parents before children. -/
theorem entered_tour : ∀ t : TreeNode, entered (tour t) = preorder t
  | .mk i r c d none => by simp [tour, entered, preorder]
  | .mk i r c d (some l) => by
    have := entered_tours l
    unfold entered at this ⊢
    simp [tour, preorder, List.filterMap_append, this]
theorem entered_tours : ∀ ts : List TreeNode, entered (tours ts) = preorderList ts
  | [] => rfl
  | t :: ts => by
    have h1 := entered_tour t
    have h2 := entered_tours ts
    unfold entered at h1 h2 ⊢
    simp [tours, preorderList, List.filterMap_append, h1, h2]
end

mutual
/-- A walk leaves every node once. -/
theorem departed_tour : ∀ t : TreeNode, (departed (tour t)).Perm (preorder t)
  | .mk i r c d none => by simp [tour, departed, preorder]
  | .mk i r c d (some l) => by
    have := departed_tours l
    unfold departed at this ⊢
    simp only [tour, preorder, List.filterMap_append, List.filterMap_cons, List.filterMap_nil]
    exact (List.perm_append_singleton _ _).trans (this.cons _)
theorem departed_tours : ∀ ts : List TreeNode, (departed (tours ts)).Perm (preorderList ts)
  | [] => List.Perm.refl _
  | t :: ts => by
    have h1 := departed_tour t
    have h2 := departed_tours ts
    unfold departed at h1 h2 ⊢
    simpa [tours, preorderList, List.filterMap_append] using h1.append h2
end

end Rustla.Spec
