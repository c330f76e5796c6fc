import Verif.Spec.History
import Verif.Lemmas.Place
/-! # Lemmas about histories of document operations -/
namespace Rustla
open Spec

/-! ## What the bookkeeping leaves alone -/

namespace DocTree

@[simp] theorem addTarget_tree (d : DocTree) (l : Str) (i : Nat) : (d.addTarget l i).tree = d.tree := rfl
@[simp] theorem addTarget_nodeCount (d : DocTree) (l : Str) (i : Nat) : (d.addTarget l i).nodeCount = d.nodeCount := rfl
@[simp] theorem addTarget_sections (d : DocTree) (l : Str) (i : Nat) : (d.addTarget l i).sections = d.sections := rfl
@[simp] theorem addTarget_classes (d : DocTree) (l : Str) (i : Nat) : (d.addTarget l i).classes = d.classes := rfl
@[simp] theorem addReference_tree (d : DocTree) (l : Str) (i : Nat) : (d.addReference l i).tree = d.tree := rfl
@[simp] theorem addReference_nodeCount (d : DocTree) (l : Str) (i : Nat) : (d.addReference l i).nodeCount = d.nodeCount := rfl
@[simp] theorem addReference_sections (d : DocTree) (l : Str) (i : Nat) : (d.addReference l i).sections = d.sections := rfl
@[simp] theorem addReference_classes (d : DocTree) (l : Str) (i : Nat) : (d.addReference l i).classes = d.classes := rfl

theorem addTargets_keeps (d : DocTree) (ls : List Str) :
    (d.addTargets ls).tree = d.tree ∧ (d.addTargets ls).nodeCount = d.nodeCount ∧
    (d.addTargets ls).sections = d.sections ∧ (d.addTargets ls).classes = d.classes := by
  unfold addTargets
  induction ls generalizing d with
  | nil => simp
  | cons l ls ih => simp only [List.foldl_cons]; have := ih (d.addTarget l d.nodeCount); simpa using this

theorem addReferences_keeps (d : DocTree) (ls : List Str) :
    (d.addReferences ls).tree = d.tree ∧ (d.addReferences ls).nodeCount = d.nodeCount ∧
    (d.addReferences ls).sections = d.sections ∧ (d.addReferences ls).classes = d.classes := by
  unfold addReferences
  induction ls generalizing d with
  | nil => simp
  | cons l ls ih => simp only [List.foldl_cons]; have := ih (d.addReference l d.nodeCount); simpa using this

@[simp] theorem addTargets_tree (d : DocTree) (ls : List Str) : (d.addTargets ls).tree = d.tree := (addTargets_keeps d ls).1
@[simp] theorem addTargets_nodeCount (d : DocTree) (ls : List Str) : (d.addTargets ls).nodeCount = d.nodeCount := (addTargets_keeps d ls).2.1
@[simp] theorem addTargets_sections (d : DocTree) (ls : List Str) : (d.addTargets ls).sections = d.sections := (addTargets_keeps d ls).2.2.1
@[simp] theorem addTargets_classes (d : DocTree) (ls : List Str) : (d.addTargets ls).classes = d.classes := (addTargets_keeps d ls).2.2.2
@[simp] theorem addReferences_tree (d : DocTree) (ls : List Str) : (d.addReferences ls).tree = d.tree := (addReferences_keeps d ls).1
@[simp] theorem addReferences_nodeCount (d : DocTree) (ls : List Str) : (d.addReferences ls).nodeCount = d.nodeCount := (addReferences_keeps d ls).2.1
@[simp] theorem addReferences_sections (d : DocTree) (ls : List Str) : (d.addReferences ls).sections = d.sections := (addReferences_keeps d ls).2.2.1
@[simp] theorem addReferences_classes (d : DocTree) (ls : List Str) : (d.addReferences ls).classes = d.classes := (addReferences_keeps d ls).2.2.2

@[simp] theorem incSym_tree (d : DocTree) : (d.incrementSymbolicFootnotes).tree = d.tree := rfl
@[simp] theorem incSym_nodeCount (d : DocTree) : (d.incrementSymbolicFootnotes).nodeCount = d.nodeCount := rfl
@[simp] theorem incSym_sections (d : DocTree) : (d.incrementSymbolicFootnotes).sections = d.sections := rfl
@[simp] theorem incSym_classes (d : DocTree) : (d.incrementSymbolicFootnotes).classes = d.classes := rfl

theorem takeLabels_keeps (d : DocTree) (data : NodeType) :
    (d.takeLabels data).2.tree = d.tree ∧ (d.takeLabels data).2.nodeCount = d.nodeCount ∧
    (d.takeLabels data).2.sections = d.sections ∧ (d.takeLabels data).2.classes = d.classes := by
  unfold takeLabels; split <;> simp

@[simp] theorem takeLabels_tree (d : DocTree) (data : NodeType) : (d.takeLabels data).2.tree = d.tree := (takeLabels_keeps d data).1
@[simp] theorem takeLabels_nodeCount (d : DocTree) (data : NodeType) : (d.takeLabels data).2.nodeCount = d.nodeCount := (takeLabels_keeps d data).2.1
@[simp] theorem takeLabels_sections (d : DocTree) (data : NodeType) : (d.takeLabels data).2.sections = d.sections := (takeLabels_keeps d data).2.2.1
@[simp] theorem takeLabels_classes (d : DocTree) (data : NodeType) : (d.takeLabels data).2.classes = d.classes := (takeLabels_keeps d data).2.2.2

theorem hyperref_keeps (d : DocTree) (data : NodeType) :
    (d.hyperrefActions data).2.2.tree = d.tree ∧ (d.hyperrefActions data).2.2.nodeCount = d.nodeCount ∧
    (d.hyperrefActions data).2.2.classes = d.classes ∧
    (d.hyperrefActions data).2.1.kind = data.kind := by
  unfold hyperrefActions
  simp only
  split
  · simp
  · simp
  · rename_i kind _ _
    refine ⟨?_, ?_, ?_, ?_⟩
    · cases kind <;> simp
    · cases kind <;> simp
    · cases kind <;> simp
    · cases kind <;> simp only [] <;> (try split) <;> rfl
  · split
    · simp
    · split <;> simp [NodeType.kind]
    · split <;> simp [NodeType.kind]
    · split <;> simp [NodeType.kind]
  all_goals simp

@[simp] theorem hyperref_tree (d : DocTree) (data : NodeType) : (d.hyperrefActions data).2.2.tree = d.tree := (hyperref_keeps d data).1
@[simp] theorem hyperref_nodeCount (d : DocTree) (data : NodeType) : (d.hyperrefActions data).2.2.nodeCount = d.nodeCount := (hyperref_keeps d data).2.1
@[simp] theorem hyperref_classes (d : DocTree) (data : NodeType) : (d.hyperrefActions data).2.2.classes = d.classes := (hyperref_keeps d data).2.2.1
@[simp] theorem hyperref_kind (d : DocTree) (data : NodeType) : (d.hyperrefActions data).2.1.kind = data.kind := (hyperref_keeps d data).2.2.2

@[simp] theorem takeClasses_tree (d : DocTree) : d.takeClasses.2.tree = d.tree := by unfold takeClasses; split <;> rfl
@[simp] theorem takeClasses_nodeCount (d : DocTree) : d.takeClasses.2.nodeCount = d.nodeCount := by unfold takeClasses; split <;> rfl
@[simp] theorem takeClasses_sections (d : DocTree) : d.takeClasses.2.sections = d.sections := by unfold takeClasses; split <;> rfl
@[simp] theorem takeClasses_hyperref (d : DocTree) : d.takeClasses.2.hyperref = d.hyperref := by unfold takeClasses; split <;> rfl
@[simp] theorem takeClasses_classes (d : DocTree) : d.takeClasses.2.classes = [] := by
  unfold takeClasses; split <;> rename_i h
  · simpa using h
  · rfl

end DocTree

/-! ## Documents as plain trees under the operations -/

/-- The effect of an operation on the plain document and its node counter. -/
inductive DocStep (t : TreeNode) (n : Nat) : TreeNode → Nat → Prop
  /-- nothing happens to the document -/
  | same : DocStep t n t n
  /-- a fresh node becomes the last child of the node at place `p` -/
  | added (p : List Nat) (m new : TreeNode) (cs : List TreeNode) (hs : subtree? t p = some m)
      (hc : m.children = some cs) (hn : new.children = if new.kind.hasChildren then some [] else none) (hi : new.id = n)
      (ha : childIsAllowed m.kind new.kind = .ok true) :
      DocStep t n (replaceAt t p (m.setChildren (some (cs ++ [new])))) (n + 1)
  /-- the last child of the node at place `p` is removed -/
  | removed (p : List Nat) (m : TreeNode) (cs : List TreeNode) (hs : subtree? t p = some m)
      (hc : m.children = some cs) : DocStep t n (replaceAt t p (m.setChildren (some cs.dropLast))) n
  /-- fields of the node at place `p` are changed -/
  | changed (p : List Nat) (m : TreeNode) (data : NodeType) (hs : subtree? t p = some m) (hk : data.kind = m.kind) :
      DocStep t n (replaceAt t p (m.setData data)) n

end Rustla
