import Verif.Model.Tree
/-!
# Specification vocabulary: documents as plain trees

Nothing here mentions the zipper's way of storing things: a document is a tree and a place in it is a list of
child indices, counted from the root.
-/
namespace Rustla.Spec

/-- The node at a place. -/
def subtree? : TreeNode → List Nat → Option TreeNode
  | t, [] => some t
  | t, i :: is => (t.children.bind (·[i]?)).bind (subtree? · is)

/-- The tree in which the node at a place is replaced by another one. -/
def replaceAt : TreeNode → List Nat → TreeNode → TreeNode
  | _, [], n => n
  | t, i :: is, n =>
    match t.children with
    | none => t
    | some cs =>
      match cs[i]? with
      | none => t
      | some c => t.setChildren (some (cs.set i (replaceAt c is n)))

mutual
/-- All nodes of a tree, parents before children, first child first. -/
def preorder : TreeNode → List TreeNode
  | .mk i r c d cs => .mk i r c d cs :: match cs with
    | none => []
    | some l => preorderList l
/-- All nodes of a list of trees. -/
def preorderList : List TreeNode → List TreeNode
  | [] => []
  | t :: ts => preorder t ++ preorderList ts
end

/-- The document a zipper stands for: what is found at the root after walking up. -/
def IsDoc (z : Zipper) (t : TreeNode) : Prop := z.walkToRoot = .ok ⟨t, []⟩

/-- The place of the focus. -/
def place (z : Zipper) : List Nat := (z.path.map (·.2)).reverse

end Rustla.Spec
