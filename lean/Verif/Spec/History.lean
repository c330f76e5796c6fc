import Verif.Model.DocTree
/-!
# Histories of document-building operations

`DocOp` lists the operations of `DocTree` that the parser calls; a history is a list of them.
-/
namespace Rustla

/-- The operations of `DocTree` used by the parser to build documents. -/
inductive DocOp where
  /-- `push_data` -/
  | push (data : NodeType)
  /-- `push_data_and_focus` -/
  | pushAndFocus (data : NodeType)
  /-- `push_child` of a fresh node, as in `/repo/src/parser/state_machine/body.rs` l.681-683 -/
  | pushNode (data : NodeType)
  /-- `pop_child` -/
  | pop
  /-- `focus_on_parent` -/
  | parent
  /-- `walk_to_root` -/
  | root
  /-- `walk` to an identifier -/
  | findId (id : Nat)
  /-- `walk_to_parent_section_level` -/
  | toSection (level : Nat)
  /-- `push_data` of the result of `new_section_data` -/
  | section (title : Str) (style : SectionLineStyle)
  /-- `push_data_and_focus` of the result of `new_section_data` -/
  | sectionAndFocus (title : Str) (style : SectionLineStyle)
  /-- `push_to_internal_target_stack` -/
  | internalTarget (label : Str)
  /-- `next_anon_target_label` -/
  | anonTarget
  /-- `next_anon_reference_label` -/
  | anonReference
  /-- `push_class` of `/repo/src/doctree/class_data.rs` l.28-30 -/
  | addClass (c : Str)
  /-- change of fields of the focused node through `mut_node_data`: the variant stays the same -/
  | setFields (data : NodeType)

namespace DocOp

/-- Effect of one operation (whether a push is accepted or refused, the document is kept). -/
def run (d : DocTree) : DocOp → Run DocTree
  | .push data => do pure (← d.pushData data).2
  | .pushAndFocus data => do pure (← d.pushDataAndFocus data).2
  | .pushNode data => do pure (← d.pushChild (TreeNode.new data d.nodeCount none none)).2
  | .pop => pure d.popChild.2
  | .parent => d.focusOnParent
  | .root => d.walkToRoot
  | .findId id => d.walkToId id
  | .toSection level => d.walkToParentSectionLevel level
  | .section title style => do pure (← d.pushData (d.newSectionData title style)).2
  | .sectionAndFocus title style => do pure (← d.pushDataAndFocus (d.newSectionData title style)).2
  | .internalTarget l => pure (d.pushInternalTarget l)
  | .anonTarget => pure d.nextAnonTargetLabel.2
  | .anonReference => pure d.nextAnonReferenceLabel.2
  | .addClass c => pure { d with classes := d.classes ++ [c] }
  | .setFields data => if data.kind = d.tree.node.kind then pure (d.setNodeData data) else pure d

/-- Effect of a history. -/
def runAll (d : DocTree) : List DocOp → Run DocTree
  | [] => pure d
  | op :: ops => do runAll (← run d op) ops

end DocOp

/-- The documents that can be built from an empty one. -/
def Reachable (d : DocTree) : Prop := ∃ stem folder ops, DocOp.runAll (DocTree.new stem folder) ops = .ok d

end Rustla
