import Verif.Model.DocTree
/-! # The reStructuredText transforms (`/repo/src/doctree/restructuredtext_transforms.rs`) -/
namespace Rustla

/-- A paragraph becomes a caption, `/repo/src/doctree/restructuredtext_transforms.rs` l.85-88. -/
def captioned (t : TreeNode) : TreeNode :=
  match t.data with
  | .Paragraph indent => t.setData (.Caption indent)
  | _ => t

/-- The treatment of the children of a figure, `/repo/src/doctree/restructuredtext_transforms.rs` l.82-93. -/
def captionSecond : List TreeNode → List TreeNode
  | a :: b :: rest => a :: captioned b :: rest
  | cs => cs

/-- All entries but the last one.
(`/repo/src/doctree/restructuredtext_transforms.rs` l.150-163) -/
def markEntries : List TreeNode → List TreeNode
  | [] => []
  | [c] => [c.setData (.Entry true)]
  | c :: d :: cs => c.setData (.Entry false) :: markEntries (d :: cs)

/-- The cells of a row of a list table, `/repo/src/doctree/restructuredtext_transforms.rs` l.141-163: all but the last are
marked as not last (`n_of_entries - 1` underflows if there are none) and the last one as last. -/
def rowCells (nested : TreeNode) : Run (List TreeNode) :=
  match nested.children with
  | none => .error (.explicit "restructuredtext_transforms.rs list table row")
  | some [] => .error (.underflow "restructuredtext_transforms.rs n_of_entries - 1")
  | some (c :: cs) => .ok (markEntries (c :: cs))

/-- One item of the outer list of a list table, `/repo/src/doctree/restructuredtext_transforms.rs` l.128-180. -/
def rowOf (item : TreeNode) : Run TreeNode :=
  if item.kind = .BulletListItem then
    match item.children with
    | some (nested :: _) =>
      if nested.kind = .BulletList then do
        let cells ← rowCells nested
        ((item.setData .TRow).setChildren (some [])).appendChildren cells
      else pure (item.setData .TRow)
    | _ => pure (item.setData .TRow)
  else pure item

/-- All items of the outer list of a list table, `/repo/src/doctree/restructuredtext_transforms.rs` l.127. -/
def rowsOf : List TreeNode → Run (List TreeNode)
  | [] => .ok []
  | t :: ts => do
    let r ← rowOf t
    let rs ← rowsOf ts
    pure (r :: rs)

/-- The outer list of a list table, `/repo/src/doctree/restructuredtext_transforms.rs` l.114-184. -/
def tableBody (list : TreeNode) : Run TreeNode :=
  if list.kind = .BulletList then
    match list.children with
    | some items => do
      let rows ← rowsOf items
      pure ((list.setData .TBody).setChildren (some rows))
    | none => pure (list.setData .TBody)
  else pure list

/-- The treatment of the children of a list table, `/repo/src/doctree/restructuredtext_transforms.rs` l.109-186. -/
def tableChildren : List TreeNode → Run (List TreeNode)
  | [] => .ok []
  | list :: rest => do
    let b ← tableBody list
    pure (b :: rest)

/-- The treatment of one node, the `match` of `perform_restructuredtext_transforms`, `/repo/src/doctree/restructuredtext_transforms.rs` l.37-252. -/
def transformHere (t : TreeNode) : Run TreeNode :=
  match t.children with
  | none => .ok t
  | some cs =>
    if t.kind = .Figure then .ok (t.setChildren (some (captionSecond cs)))
    else if t.kind = .ListTable then do
      let cs' ← tableChildren cs
      pure (t.setChildren (some cs'))
    else .ok t

/-- The loop over the children, `/repo/src/doctree/restructuredtext_transforms.rs` l.254-258. -/
def transformAll (f : TreeNode → Run TreeNode) : List TreeNode → Run (List TreeNode)
  | [] => .ok []
  | t :: ts => do
    let r ← f t
    let rs ← transformAll f ts
    pure (r :: rs)

/-- `perform_restructuredtext_transforms` of a node, `/repo/src/doctree/restructuredtext_transforms.rs` l.34-259.
Simplification: the depth of the recursion is bounded by a number; `transform_enough` (`Verif.Props.Transforms`) shows
that the height of the tree is enough. -/
def transformUpTo : Nat → TreeNode → Run TreeNode
  | 0, _ => .error .outOfFuel
  | n + 1, t => do
    let t' ← transformHere t
    match t'.children with
    | none => pure t'
    | some cs => do
      let cs' ← transformAll (transformUpTo n) cs
      pure (t'.setChildren (some cs'))

/-- `perform_restructuredtext_transforms` of a node, `/repo/src/doctree/restructuredtext_transforms.rs` l.34-259. -/
def transformTree (t : TreeNode) : Run TreeNode := transformUpTo (t.height + 1) t

/-- `DocTree::perform_restructuredtext_transforms`, `/repo/src/doctree/restructuredtext_transforms.rs` l.14-19. -/
def DocTree.transform (d : DocTree) : Run DocTree := do
  let z ← d.tree.walkToRoot
  let t ← transformTree z.node
  pure { d with tree := { node := t, path := [] } }

end Rustla
