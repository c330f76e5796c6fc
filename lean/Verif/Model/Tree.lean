import Verif.Model.NodeTypes
/-!
# Document tree nodes and the tree zipper

`/repo/src/doctree/tree_node.rs`, `/repo/src/doctree/tree_zipper.rs`, `/repo/src/doctree/walkers.rs`.
-/
namespace Rustla

/-- `TreeNode`, `/repo/src/doctree/tree_node.rs` l.12-18: identifier, target labels, classes, payload, children. -/
inductive TreeNode where
  | mk (id : Nat) (refnames : Option (List Str)) (classes : Option (List Str)) (data : NodeType)
      (children : Option (List TreeNode))
  deriving Repr

namespace TreeNode

/-- `id`, `/repo/src/doctree/tree_node.rs` l.63-65. -/
def id : TreeNode → Nat | mk i _ _ _ _ => i
/-- `shared_target_labels`, `/repo/src/doctree/tree_node.rs` l.132-134. -/
def refnames : TreeNode → Option (List Str) | mk _ r _ _ _ => r
/-- The field `classes`, `/repo/src/doctree/tree_node.rs` l.15. -/
def classes : TreeNode → Option (List Str) | mk _ _ c _ _ => c
/-- `shared_data`, `/repo/src/doctree/tree_node.rs` l.1028-1030. -/
def data : TreeNode → NodeType | mk _ _ _ d _ => d
/-- `shared_children`, `/repo/src/doctree/tree_node.rs` l.142-144. -/
def children : TreeNode → Option (List TreeNode) | mk _ _ _ _ c => c
/-- The variant of a node.
(`/repo/src/doctree/tree_node_types.rs` l.23-921) -/
def kind (t : TreeNode) : Kind := t.data.kind

/-- Assignment through `mut_children`, `/repo/src/doctree/tree_node.rs` l.147-149. -/
def setChildren : TreeNode → Option (List TreeNode) → TreeNode | mk i r c d _, ch => mk i r c d ch
/-- Assignment through `mut_data`, `/repo/src/doctree/tree_node.rs` l.1033-1035. -/
def setData : TreeNode → NodeType → TreeNode | mk i r c _ ch, d => mk i r c d ch
/-- `set_target_label`, `/repo/src/doctree/tree_node.rs` l.137-139. -/
def setRefnames : TreeNode → Option (List Str) → TreeNode | mk i _ c d ch, r => mk i r c d ch

/-- `TreeNode::new`, `/repo/src/doctree/tree_node.rs` l.23-36. -/
def new (data : NodeType) (id : Nat) (labels classes : Option (List Str)) : TreeNode :=
  mk id labels classes data (if data.kind.hasChildren then some [] else none)

/-- `push_child`, `/repo/src/doctree/tree_node.rs` l.75-94; `none` is `Err`: the node is refused. -/
def pushChild (t node : TreeNode) : Run (Option TreeNode) := do
  let ok ← childIsAllowed t.kind node.kind
  if ok then
    match t.children with
    | some cs => pure (some (t.setChildren (some (cs ++ [node]))))
    | none => pure none
  else pure none

/-- `pop_child`, `/repo/src/doctree/tree_node.rs` l.98-108. -/
def popChild (t : TreeNode) : Option (TreeNode × TreeNode) :=
  match t.children with
  | some cs => cs.getLast?.map fun c => (c, t.setChildren (some cs.dropLast))
  | none => none

/-- The check of all children in `append_children`, `/repo/src/doctree/tree_node.rs` l.111-129. -/
def allAllowed (parent : Kind) : List TreeNode → Run Unit
  | [] => .ok ()
  | n :: ns => do
    let ok ← childIsAllowed parent n.kind
    if ok then allAllowed parent ns else .error (.explicit "tree_node.rs append_children")

/-- `append_children`, `/repo/src/doctree/tree_node.rs` l.111-129. -/
def appendChildren (t : TreeNode) (nodes : List TreeNode) : Run TreeNode := do
  allAllowed t.kind nodes
  match t.children with
  | some cs => pure (t.setChildren (some (cs ++ nodes)))
  | none => .error (.explicit "tree_node.rs append_children")

end TreeNode

/-- Rust `Vec::swap_remove` (the vector that is left).
(`/repo/src/doctree/tree_zipper.rs` l.78-78) -/
def swapRemove {α : Type} (l : List α) (i : Nat) : List α :=
  match l.getLast? with
  | some x => (l.set i x).dropLast
  | none => l

/-- Rust `Vec::push` followed by `Vec::swap(i, len - 1)`; a panic if `i` is out of bounds.
(`/repo/src/doctree/tree_zipper.rs` l.137-142) -/
def pushSwap {α : Type} (l : List α) (i : Nat) (x : α) : Run (List α) :=
  if h : i < l.length then .ok ((l.set i x) ++ [l[i]])
  else if i = l.length then .ok (l ++ [x])
  else .error (.indexOutOfBounds "tree_zipper.rs focus_on_parent")

/-- `TreeZipper`, `/repo/src/doctree/tree_zipper.rs` l.14-18: the focused node and the chain of its ancestors,
nearest first, each without the child the focus went through, with the index of that child.
Simplification: `parent` and `index_in_parent` are either both present or both absent, which is all that the
functions of the module construct. -/
structure Zipper where
  node : TreeNode
  path : List (TreeNode × Nat)
  deriving Repr

namespace Zipper

/-- `focus_on_child`, `/repo/src/doctree/tree_zipper.rs` l.73-95; `none` is `Err` with an unchanged zipper. -/
def focusOnChild (z : Zipper) (i : Nat) : Option Zipper :=
  match z.node.children with
  | some cs =>
    if h : i < cs.length then
      some { node := cs[i], path := (z.node.setChildren (some (swapRemove cs i)), i) :: z.path }
    else none
  | none => none

/-- `focus_on_parent`, `/repo/src/doctree/tree_zipper.rs` l.100-155.  `none` is `Err` with an unchanged zipper
(no parent).  Simplification: the parent of a node always has a child vector (the other `Err`, l.141-146,
can only be reached with a zipper that `focus_on_child` does not construct); modelled as a panic. -/
def focusOnParent (z : Zipper) : Run (Option Zipper) :=
  match z.path with
  | [] => .ok none
  | (p, i) :: rest =>
    match p.children with
    | none => .error (.unreachable "tree_zipper.rs focus_on_parent")
    | some cs => do
      let cs' ← pushSwap cs i z.node
      .ok (some { node := p.setChildren (some cs'), path := rest })

/-- `walk_to_root`, `/repo/src/doctree/tree_zipper.rs` l.158-170, with the ancestors as explicit argument. -/
def walkToRootAux : TreeNode → List (TreeNode × Nat) → Run TreeNode
  | n, [] => .ok n
  | n, (p, i) :: rest =>
    match p.children with
    | none => .error (.unreachable "tree_zipper.rs focus_on_parent")
    | some cs => do
      let cs' ← pushSwap cs i n
      walkToRootAux (p.setChildren (some cs')) rest

/-- `walk_to_root`, `/repo/src/doctree/tree_zipper.rs` l.158-170. -/
def walkToRoot (z : Zipper) : Run Zipper := do
  let n ← walkToRootAux z.node z.path
  pure { node := n, path := [] }

/-- The test of `walk_to_parent_section_level`, `/repo/src/doctree/tree_zipper.rs` l.173-202: does the walk end here? -/
def sectionStop (level : Nat) : NodeType → Bool
  | .Document => true
  | .Section (level := l) .. => l ≤ level
  | _ => false

/-- `walk_to_parent_section_level`, `/repo/src/doctree/tree_zipper.rs` l.173-202.  The `panic!` of l.184 is dead
code (its condition contradicts the test before it). -/
def walkToSectionAux (level : Nat) : TreeNode → List (TreeNode × Nat) → Run Zipper
  | n, path =>
    if sectionStop level n.data then .ok ⟨n, path⟩ else
    match path with
    | [] => .ok ⟨n, []⟩
    | (p, i) :: rest =>
      match p.children with
      | none => .error (.unreachable "tree_zipper.rs focus_on_parent")
      | some cs => do
        let cs' ← pushSwap cs i n
        walkToSectionAux level (p.setChildren (some cs')) rest

/-- `walk_to_parent_section_level`, `/repo/src/doctree/tree_zipper.rs` l.173-202. -/
def walkToParentSectionLevel (z : Zipper) (level : Nat) : Run Zipper := walkToSectionAux level z.node z.path

/-- `focus_on_last_child`, `/repo/src/doctree/tree_zipper.rs` l.205-219: with an empty child vector
`children_len - 1` underflows. -/
def focusOnLastChild (z : Zipper) : Run (Option Zipper) :=
  match z.node.children with
  | none => .ok none
  | some [] => .error (.underflow "tree_zipper.rs focus_on_last_child")
  | some (_ :: cs) => .ok (z.focusOnChild cs.length)

/-- `focus_on_sibling`, `/repo/src/doctree/tree_zipper.rs` l.222-241.  The flag tells `Ok` from `Err`; on `Err`
the zipper may have been moved to the parent. -/
def focusOnSibling (z : Zipper) (i : Nat) : Run (Zipper × Bool) := do
  match ← z.focusOnParent with
  | none => pure (z, false)
  | some p =>
    match p.focusOnChild i with
    | some s => pure (s, true)
    | none => pure (p, false)

/-- `push_child`, `/repo/src/doctree/tree_zipper.rs` l.39-44. -/
def pushChild (z : Zipper) (n : TreeNode) : Run (Option Zipper) := do
  match ← z.node.pushChild n with
  | some t => pure (some { z with node := t })
  | none => pure none

/-- `push_data`, `/repo/src/doctree/tree_zipper.rs` l.245-257; `none` is `Err` with an unchanged zipper. -/
def pushData (z : Zipper) (data : NodeType) (id : Nat) (labels classes : Option (List Str)) : Run (Option Zipper) :=
  z.pushChild (TreeNode.new data id labels classes)

/-- `push_data_and_focus`, `/repo/src/doctree/tree_zipper.rs` l.261-286. -/
def pushDataAndFocus (z : Zipper) (data : NodeType) (id : Nat) (labels classes : Option (List Str)) :
    Run (Option Zipper) := do
  match ← z.pushChild (TreeNode.new data id labels classes) with
  | some z' => z'.focusOnLastChild
  | none => pure none

end Zipper

mutual
/-- Height of a tree, the recursion bound of `Zipper.walkToNodeWithId`.
(`/repo/src/doctree/walkers.rs` l.74-107) -/
def TreeNode.height : TreeNode → Nat
  | .mk _ _ _ _ cs => match cs with
    | none => 1
    | some l => TreeNode.heightList l + 1
/-- Height of a forest.
(`/repo/src/doctree/walkers.rs` l.74-107) -/
def TreeNode.heightList : List TreeNode → Nat
  | [] => 0
  | t :: ts => max (TreeNode.height t) (TreeNode.heightList ts)
end

namespace Zipper

/-- `focus_on_parent` where `Ok` and `Err` are treated alike, as in `/repo/src/doctree/walkers.rs` l.84-86, l.103-105. -/
def parentOrSelf (z : Zipper) : Run Zipper := do
  match ← z.focusOnParent with
  | some p => pure p
  | none => pure z

/-- The loop of `walk_to_node_with_id`, `/repo/src/doctree/walkers.rs` l.89-106; `rec` is the recursive call.
The flag tells `Ok` from `Err`. -/
def walkIdLoop (rec : Zipper → Run (Bool × Zipper)) : List Nat → Zipper → Run (Bool × Zipper)
  | [], z => do pure (false, ← z.parentOrSelf)
  | i :: is, z =>
    match z.focusOnChild i with
    | none => .error (.unreachable "walkers.rs walk_to_node_with_id")
    | some c => do
      let (found, z') ← rec c
      if found then pure (true, z') else walkIdLoop rec is z'

/-- `TreeZipper::walk_to_node_with_id`, `/repo/src/doctree/walkers.rs` l.74-106.  `fuel` bounds the recursion depth
(the height of the tree is enough). -/
def walkToNodeWithId (id : Nat) : Nat → Zipper → Run (Bool × Zipper)
  | 0, _ => .error (.explicit "recursion bound")
  | fuel + 1, z =>
    if z.node.id = id then .ok (true, z) else
    match z.node.children with
    | none => do pure (false, ← z.parentOrSelf)
    | some cs => walkIdLoop (walkToNodeWithId id fuel) (List.range cs.length) z

end Zipper

end Rustla
