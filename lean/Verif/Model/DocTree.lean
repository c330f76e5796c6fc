import Verif.Model.Tree
import Verif.Model.Common
/-!
# The document tree with its bookkeeping

`/repo/src/doctree/mod.rs`, `/repo/src/doctree/hyperref_data.rs`, `/repo/src/doctree/section_data.rs`,
`/repo/src/doctree/class_data.rs`.
-/
namespace Rustla

/-- Rust `HashMap::insert`: replace the value of an existing key, else add the pair.
(`/repo/src/doctree/mod.rs` l.550-575) -/
def mapInsert {κ ν : Type} [DecidableEq κ] (m : List (κ × ν)) (k : κ) (v : ν) : List (κ × ν) :=
  match m with
  | [] => [(k, v)]
  | (k', v') :: rest => if k' = k then (k, v) :: rest else (k', v') :: mapInsert rest k v

/-- Rust `HashMap::get`.
(`/repo/src/doctree/mod.rs` l.561-575) -/
def mapGet {κ ν : Type} [DecidableEq κ] (m : List (κ × ν)) (k : κ) : Option ν :=
  match m with
  | [] => none
  | (k', v) :: rest => if k' = k then some v else mapGet rest k

/-- Rust `HashMap::contains_key`.
(`/repo/src/doctree/mod.rs` l.529-541) -/
def mapHas {κ ν : Type} [DecidableEq κ] (m : List (κ × ν)) (k : κ) : Bool := (mapGet m k).isSome

/-- `HyperrefData`, `/repo/src/doctree/hyperref_data.rs` l.11-45. -/
structure HyperrefData where
  targets : List (Str × Nat) := []
  references : List (Str × List Nat) := []
  nSymFootnotes : Nat := 0
  nSymFootnoteRefs : Nat := 0
  nAnonTargets : Nat := 0
  nAnonReferences : Nat := 0
  accumulated : List Str := []
  deriving Repr

/-- `SectionData`, `/repo/src/doctree/section_data.rs` l.10-19. -/
structure SectionData where
  levels : List (SectionLineStyle × Nat) := []
  highest : Nat := 0
  deriving Repr

/-- `line_style_section_level`, `/repo/src/doctree/section_data.rs` l.44-49. -/
def SectionData.levelOf (s : SectionData) (style : SectionLineStyle) : Nat :=
  (mapGet s.levels style).getD (s.highest + 1)

/-- `add_section_level`, `/repo/src/doctree/section_data.rs` l.52-63. -/
def SectionData.addLevel (s : SectionData) (style : SectionLineStyle) : SectionData :=
  match mapGet s.levels style with
  | some _ => s
  | none => { s with levels := mapInsert s.levels style (s.highest + 1) }

/-- `DocTree`, `/repo/src/doctree/mod.rs` l.41-68. -/
structure DocTree where
  filenameStem : Str
  fileFolder : Str
  tree : Zipper
  nodeCount : Nat
  hyperref : HyperrefData
  classes : List Str
  sections : SectionData
  deriving Repr

namespace DocTree

/-- `DocTree::new`, `/repo/src/doctree/mod.rs` l.76-112.  Simplification: the file name is given by its stem and
its folder. -/
def new (stem folder : Str) : DocTree where
  filenameStem := stem
  fileFolder := folder
  tree := ⟨TreeNode.new .Document 0 none none, []⟩
  nodeCount := 1
  hyperref := {}
  classes := []
  sections := {}

/-- `focus_on_parent`, `/repo/src/doctree/mod.rs` l.152-162. -/
def focusOnParent (d : DocTree) : Run DocTree := do
  pure { d with tree := ← d.tree.parentOrSelf }

/-- `has_target_label`, `/repo/src/doctree/mod.rs` l.530-534. -/
def hasTargetLabel (d : DocTree) (l : Str) : Bool := mapHas d.hyperref.targets l

/-- `has_reference_label`, `/repo/src/doctree/mod.rs` l.537-541. -/
def hasReferenceLabel (d : DocTree) (l : Str) : Bool := mapHas d.hyperref.references l

/-- `add_target`, `/repo/src/doctree/mod.rs` l.550-557. -/
def addTarget (d : DocTree) (label : Str) (id : Nat) : DocTree :=
  { d with hyperref := { d.hyperref with targets := mapInsert d.hyperref.targets label id } }

/-- `add_reference`, `/repo/src/doctree/mod.rs` l.561-574. -/
def addReference (d : DocTree) (label : Str) (id : Nat) : DocTree :=
  let refs := d.hyperref.references
  let ids := match mapGet refs label with
    | some ids => ids ++ [id]
    | none => [id]
  { d with hyperref := { d.hyperref with references := mapInsert refs label ids } }

/-- `for label in target_labels.iter() { self.add_target(label, self.node_count) }`.
(`/repo/src/doctree/mod.rs` l.167-219) -/
def addTargets (d : DocTree) (labels : List Str) : DocTree :=
  labels.foldl (fun d l => d.addTarget l d.nodeCount) d

/-- `for label in target_labels.iter() { self.add_reference(label, self.node_count) }`.
(`/repo/src/doctree/mod.rs` l.167-219) -/
def addReferences (d : DocTree) (labels : List Str) : DocTree :=
  labels.foldl (fun d l => d.addReference l d.nodeCount) d

/-- `push_to_internal_target_stack`, `/repo/src/doctree/mod.rs` l.579-581. -/
def pushInternalTarget (d : DocTree) (label : Str) : DocTree :=
  { d with hyperref := { d.hyperref with accumulated := d.hyperref.accumulated ++ [label] } }

/-- `increment_symbolic_footnotes`, `/repo/src/doctree/mod.rs` l.594-596. -/
def incrementSymbolicFootnotes (d : DocTree) : DocTree :=
  { d with hyperref := { d.hyperref with nSymFootnotes := d.hyperref.nSymFootnotes + 1 } }

/-- The label of an anonymous target or reference, `/repo/src/doctree/mod.rs` l.630-647 and
`/repo/src/doctree/hyperref_data.rs` l.174, l.182. -/
def anonLabel (n : Nat) : Str := str! "[[-ANON-LABEL-" ++ decimal n ++ str! "-]]"

/-- `next_anon_target_label`, `/repo/src/doctree/mod.rs` l.628-635. -/
def nextAnonTargetLabel (d : DocTree) : Str × DocTree :=
  let n := d.hyperref.nAnonTargets + 1
  (anonLabel n, { d with hyperref := { d.hyperref with nAnonTargets := n } })

/-- `next_anon_reference_label`, `/repo/src/doctree/mod.rs` l.638-645. -/
def nextAnonReferenceLabel (d : DocTree) : Str × DocTree :=
  let n := d.hyperref.nAnonReferences + 1
  (anonLabel n, { d with hyperref := { d.hyperref with nAnonReferences := n } })

/-- `FOOTNOTE_SYMBOLS`, `/repo/src/common.rs` l.489-489. -/
def footnoteSymbols : List Char := ['*', '†', '‡', '§', '¶', '#', '♠', '♥', '♦', '♣']

/-- The computation shared by `new_symbolic_footnote_label` and `new_symbolic_footnote_ref_label`,
`/repo/src/doctree/mod.rs` l.728-775. -/
def symbolLabel (n : Nat) : Option Str :=
  let k := footnoteSymbols.length
  match footnoteSymbols[n % k]? with
  | some s => some (List.replicate (n / k + 1) s)
  | none => none

/-- `new_symbolic_footnote_label`, `/repo/src/doctree/mod.rs` l.729-748. -/
def newSymbolicFootnoteLabel (d : DocTree) : Option Str := symbolLabel d.hyperref.nSymFootnotes

/-- The loop of `new_autonumber_footnote_label`, `/repo/src/doctree/mod.rs` l.778-788: the first number from `n` on
that is not used.  Simplification: the upper bound `u32::MAX` is replaced by `fuel`; one more than the number
of labels in use is always enough. -/
def firstFree (used : Str → Bool) : Nat → Nat → Option Str
  | 0, _ => none
  | fuel + 1, n => if used (decimal n) then firstFree used fuel (n + 1) else some (decimal n)

/-- `new_autonumber_footnote_label`, `/repo/src/doctree/mod.rs` l.778-788. -/
def newAutonumberFootnoteLabel (d : DocTree) : Option Str :=
  firstFree d.hasTargetLabel (d.hyperref.targets.length + 1) 1

/-- `new_autonumber_footnote_ref_label`, `/repo/src/doctree/mod.rs` l.793-803. -/
def newAutonumberFootnoteRefLabel (d : DocTree) : Option Str :=
  firstFree d.hasReferenceLabel (d.hyperref.references.length + 1) 1

/-- First part of `hyperref_actions`, `/repo/src/doctree/mod.rs` l.236-248: take the accumulated internal labels,
unless the node is an empty line or white space. -/
def takeLabels (d : DocTree) (data : NodeType) : List Str × DocTree :=
  match data with
  | .EmptyLine | .WhiteSpace .. => ([], d)
  | _ => (d.hyperref.accumulated, { d with hyperref := { d.hyperref with accumulated := [] } })

/-- `hyperref_actions`, `/repo/src/doctree/mod.rs` l.232-383: the labels given to a node that is about to be added,
the node data with labels filled in and the updated document data. -/
def hyperrefActions (d : DocTree) (data : NodeType) : Option (List Str) × NodeType × DocTree :=
  let (labels, d) := d.takeLabels data
  let wrap (ls : List Str) : Option (List Str) := if ls.isEmpty then none else some ls
  match data with
  | .Citation (label := label) .. =>
    let n := normalizeRefname label
    (wrap (labels ++ [n]), data, d.addTarget n d.nodeCount)
  | .CitationReference (displayed_text := t) .. =>
    (wrap labels, data, d.addReference (normalizeRefname t) d.nodeCount)
  | .Footnote bi kind label target =>
    let new : Option Str := match kind with
      | .Manual => none
      | .AutoNumbered | .SimpleRefName => d.newAutonumberFootnoteLabel
      | .AutoSymbol => d.newSymbolicFootnoteLabel
    let labels' : List Str := match kind, new with
      | .Manual, _ => labels ++ [normalizeRefname label]
      | _, some n => labels ++ [n]
      | _, none => labels
    let data' : NodeType := match kind, new with
      | .Manual, _ => data
      | _, some n => .Footnote bi kind n n
      | _, none => .Footnote bi kind label target
    let d := d.addTargets labels'
    let d := match kind with
      | .AutoSymbol => d.incrementSymbolicFootnotes
      | _ => d
    (wrap labels', data', d)
  | .FootnoteReference text target kind =>
    match kind with
    | .Manual =>
      let ls := labels ++ [normalizeRefname text]
      (wrap ls, data, d.addReferences ls)
    | .AutoNumbered =>
      match d.newAutonumberFootnoteRefLabel with
      | some l =>
        let ls := labels ++ [l]
        (wrap ls, .FootnoteReference l l kind, d.addReferences ls)
      | none => (none, data, d)
    | .SimpleRefName =>
      match d.newAutonumberFootnoteRefLabel with
      | some l =>
        let ls := labels ++ [l] ++ [normalizeRefname text]
        (wrap ls, .FootnoteReference text l kind, d.addReferences ls)
      | none => (none, data, d)
    | .AutoSymbol =>
      match d.newSymbolicFootnoteLabel with
      | some l =>
        let ls := labels ++ [l]
        (wrap ls, .FootnoteReference text target kind, d.addReferences ls)
      | none => (none, data, d)
  | .ExternalHyperlinkTarget (target := target) .. =>
    let ls := labels ++ [normalizeRefname target]
    (wrap ls, data, d.addTargets ls)
  | .IndirectHyperlinkTarget (target := target) .. =>
    let d := d.addTargets labels
    (wrap labels, data, d.addReference (normalizeRefname (normalizeRefname target)) d.nodeCount)
  | .Section title level style =>
    let ls := labels ++ [normalizeRefname title]
    let d := d.addTargets ls
    let secs := d.sections.addLevel style
    let secs := if level > secs.highest then { secs with highest := secs.highest + 1 } else secs
    (wrap ls, data, { d with sections := secs })
  | _ => (wrap labels, data, d.addTargets labels)

/-- `classes`, `/repo/src/doctree/mod.rs` l.387-394. -/
def takeClasses (d : DocTree) : Option (List Str) × DocTree :=
  if d.classes.isEmpty then (none, d) else (some d.classes, { d with classes := [] })

/-- `push_data_and_focus`, `/repo/src/doctree/mod.rs` l.167-184.  The flag tells `Ok` from `Err`. -/
def pushDataAndFocus (d : DocTree) (data : NodeType) : Run (Bool × DocTree) := do
  let (labels, data, d) := d.hyperrefActions data
  let (classes, d) := d.takeClasses
  match ← d.tree.pushDataAndFocus data d.nodeCount labels classes with
  | some z => pure (true, { d with tree := z, nodeCount := d.nodeCount + 1 })
  | none => pure (false, d)

/-- `push_data`, `/repo/src/doctree/mod.rs` l.189-206.  The flag tells `Ok` from `Err`. -/
def pushData (d : DocTree) (data : NodeType) : Run (Bool × DocTree) := do
  let (labels, data, d) := d.hyperrefActions data
  let (classes, d) := d.takeClasses
  match ← d.tree.pushData data d.nodeCount labels classes with
  | some z => pure (true, { d with tree := z, nodeCount := d.nodeCount + 1 })
  | none => pure (false, d)

/-- `push_child`, `/repo/src/doctree/mod.rs` l.210-221.  The flag tells `Ok` from `Err`. -/
def pushChild (d : DocTree) (node : TreeNode) : Run (Bool × DocTree) := do
  let (labels, data, d) := d.hyperrefActions node.data
  match ← d.tree.pushChild ((node.setData data).setRefnames labels) with
  | some z => pure (true, { d with tree := z, nodeCount := d.nodeCount + 1 })
  | none => pure (false, d)

/-- `pop_child`, `/repo/src/doctree/mod.rs` l.223-228: the node counter is not decremented. -/
def popChild (d : DocTree) : Option TreeNode × DocTree :=
  match d.tree.node.popChild with
  | some (c, t) => (some c, { d with tree := { d.tree with node := t } })
  | none => (none, d)

/-- Assignment through `mut_node_data`, `/repo/src/doctree/mod.rs` l.432-434. -/
def setNodeData (d : DocTree) (data : NodeType) : DocTree :=
  { d with tree := { d.tree with node := d.tree.node.setData data } }

/-- `append_children`, `/repo/src/doctree/mod.rs` l.523-527. -/
def appendChildren (d : DocTree) (nodes : List TreeNode) : Run DocTree := do
  let t ← d.tree.node.appendChildren nodes
  pure { d with tree := { d.tree with node := t }, nodeCount := d.nodeCount + nodes.length }

/-- `walk_to_root`, `/repo/src/doctree/walkers.rs` l.21-24. -/
def walkToRoot (d : DocTree) : Run DocTree := do
  pure { d with tree := ← d.tree.walkToRoot }

/-- `walk` with `TraversalType::ID` and `walk_to_node_with_id`, `/repo/src/doctree/walkers.rs` l.43-54. -/
def walkToId (d : DocTree) (id : Nat) : Run DocTree := do
  let z ← d.tree.walkToRoot
  if id > d.nodeCount then .error (.explicit "walkers.rs walk_to_node_with_id") else
  let (_, z) ← z.walkToNodeWithId id (z.node.height + 1)
  pure { d with tree := z }

/-- `walk_to_parent_section_level`, `/repo/src/doctree/mod.rs` l.701-704. -/
def walkToParentSectionLevel (d : DocTree) (level : Nat) : Run DocTree := do
  pure { d with tree := ← d.tree.walkToParentSectionLevel level }

/-- `new_section_data`, `/repo/src/doctree/mod.rs` l.675-686. -/
def newSectionData (d : DocTree) (title : Str) (style : SectionLineStyle) : NodeType :=
  .Section title (d.sections.levelOf style) style

/-- `shared_data`, `/repo/src/doctree/mod.rs` l.712-714. -/
def sharedData (d : DocTree) : NodeType := d.tree.node.data

/-- `shared_children`, `/repo/src/doctree/mod.rs` l.407-413. -/
def sharedChildren (d : DocTree) : Option (List TreeNode) := d.tree.node.children

end DocTree

end Rustla
