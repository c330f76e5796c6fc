import Verif.Model.Parser
import Verif.Spec.Tree
/-! # Outlines of documents, for examples -/
namespace Rustla
open Spec

mutual
/-- The kinds of the nodes of a tree with their depths, parents before children. -/
def outlineFrom (depth : Nat) : TreeNode → List (Nat × Kind)
  | .mk _ _ _ d cs => (depth, d.kind) :: match cs with
    | none => []
    | some l => outlineFromList (depth + 1) l
/-- The kinds of the nodes of a list of trees with their depths. -/
def outlineFromList (depth : Nat) : List TreeNode → List (Nat × Kind)
  | [] => []
  | t :: ts => outlineFrom depth t ++ outlineFromList depth ts
end

/-- The document that the program goes on with after a parse, `/repo/src/lib.rs` l.96-130. -/
def ParsingResult.doc : ParsingResult → DocTree
  | .eof d _ => d
  | .emptyStateStack d _ => d
  | .failure d => d

/-- Did the parse succeed? -/
def ParsingResult.succeeded : ParsingResult → Bool
  | .failure _ => false
  | _ => true

/-- The plain document of a parse. -/
def ParsingResult.root (r : ParsingResult) : Option TreeNode :=
  match r.doc.tree.walkToRoot with
  | .ok z => some z.node
  | .error _ => none

/-- The outline of the document of a parse, and whether the parse succeeded. -/
def outlineOf (r : Run ParsingResult) : Option (Bool × List (Nat × Kind)) :=
  match r with
  | .ok r => r.root.map fun t => (r.succeeded, outlineFrom 0 t)
  | .error _ => none

end Rustla
