import Verif.Props.Pending
/-!
# C51: nothing that was recorded about labels is forgotten
-/
namespace Rustla
open Spec DocTree

/-! ## Specification -/

/-- The nodes recorded as referring to a label, in the order in which they were recorded. -/
def referrers (d : DocTree) (l : Str) : List Nat := (mapGet d.hyperref.references l).getD []

/-- Everything recorded in `d` is still recorded in `d'`: of each label the nodes that refer to it are kept, in order
and as a prefix, and each label that is a target stays a target. -/
def KeepsRecords (d d' : DocTree) : Prop :=
  (∀ l, referrers d l <+: referrers d' l) ∧ ∀ l, d.hasTargetLabel l = true → d'.hasTargetLabel l = true

theorem KeepsRecords.refl (d : DocTree) : KeepsRecords d d := ⟨fun _ => List.prefix_refl _, fun _ h => h⟩

theorem KeepsRecords.trans {a b c : DocTree} (h1 : KeepsRecords a b) (h2 : KeepsRecords b c) : KeepsRecords a c :=
  ⟨fun l => (h1.1 l).trans (h2.1 l), fun l h => h2.2 l (h1.2 l h)⟩

theorem keeps_of_eq {d d' : DocTree} (h1 : d'.hyperref.references = d.hyperref.references)
    (h2 : d'.hyperref.targets = d.hyperref.targets) : KeepsRecords d d' :=
  ⟨fun l => by rw [referrers, referrers, h1]; exact List.prefix_refl _, fun l h => by rw [hasTargetLabel, h2]; exact h⟩

theorem keeps_addTarget (d : DocTree) (l : Str) (id : Nat) : KeepsRecords d (d.addTarget l id) := by
  refine ⟨fun _ => List.prefix_refl _, fun l' h => ?_⟩
  simp only [hasTargetLabel, mapHas, addTarget, mapGet_insert] at h ⊢
  split
  · rfl
  · exact h

/-- Recording a reference adds the node at the end of the list of its label and leaves the other labels alone. -/
theorem referrers_addReference (d : DocTree) (l l' : Str) (id : Nat) :
    referrers (d.addReference l id) l' = referrers d l' ++ (if l = l' then [id] else []) := by
  simp only [referrers, addReference, mapGet_insert]
  by_cases h : l = l'
  · subst h
    simp only [if_true]
    cases mapGet d.hyperref.references l <;> rfl
  · simp [h]

theorem keeps_addReference (d : DocTree) (l : Str) (id : Nat) : KeepsRecords d (d.addReference l id) :=
  ⟨fun l' => by rw [referrers_addReference]; exact List.prefix_append _ _, fun _ h => h⟩

theorem keeps_addTargets (d : DocTree) (ls : List Str) : KeepsRecords d (d.addTargets ls) := by
  unfold addTargets
  induction ls generalizing d with
  | nil => exact .refl _
  | cons l ls ih => exact (keeps_addTarget d l _).trans (ih _)

theorem keeps_addReferences (d : DocTree) (ls : List Str) : KeepsRecords d (d.addReferences ls) := by
  unfold addReferences
  induction ls generalizing d with
  | nil => exact .refl _
  | cons l ls ih => exact (keeps_addReference d l _).trans (ih _)

theorem keeps_takeLabels (d : DocTree) (data : NodeType) : KeepsRecords d (d.takeLabels data).2 := by
  unfold takeLabels
  split <;> exact keeps_of_eq rfl rfl

theorem keeps_hyperref (d : DocTree) (data : NodeType) : KeepsRecords d (d.hyperrefActions data).2.2 := by
  refine (keeps_takeLabels d data).trans ?_
  unfold hyperrefActions
  generalize d.takeLabels data = a
  obtain ⟨labels, d1⟩ := a
  simp only
  split
  · exact keeps_addTarget _ _ _
  · exact keeps_addReference _ _ _
  · rename_i kind _ _
    cases kind <;> simp only
    · exact keeps_addTargets _ _
    · exact keeps_addTargets _ _
    · exact keeps_addTargets _ _
    · exact (keeps_addTargets _ _).trans (keeps_of_eq rfl rfl)
  · split
    · exact keeps_addReferences _ _
    · split
      · exact keeps_addReferences _ _
      · exact .refl _
    · split
      · exact keeps_addReferences _ _
      · exact .refl _
    · split
      · exact keeps_addReferences _ _
      · exact .refl _
  · exact keeps_addTargets _ _
  · exact (keeps_addTargets _ _).trans (keeps_addReference _ _ _)
  · exact (keeps_addTargets _ _).trans (keeps_of_eq rfl rfl)
  · exact keeps_addTargets _ _

theorem takeClasses_hyperref (d : DocTree) : d.takeClasses.2.hyperref = d.hyperref := by
  unfold takeClasses; split <;> rfl

theorem pushData_hyperref {d d' : DocTree} {data : NodeType} {b : Bool} (h : d.pushData data = .ok (b, d')) :
    d'.hyperref = (d.hyperrefActions data).2.2.hyperref := by
  unfold DocTree.pushData at h
  generalize hh : d.hyperrefActions data = ha at h
  obtain ⟨ls, data', d1⟩ := ha
  simp only [bind, Except.bind] at h
  split at h
  · simp at h
  · split at h <;> simp [pure, Except.pure] at h <;> obtain ⟨_, rfl⟩ := h
    · rfl
    · exact takeClasses_hyperref d1

theorem pushDataAndFocus_hyperref {d d' : DocTree} {data : NodeType} {b : Bool}
    (h : d.pushDataAndFocus data = .ok (b, d')) : d'.hyperref = (d.hyperrefActions data).2.2.hyperref := by
  unfold DocTree.pushDataAndFocus at h
  generalize hh : d.hyperrefActions data = ha at h
  obtain ⟨ls, data', d1⟩ := ha
  simp only [bind, Except.bind] at h
  split at h
  · simp at h
  · split at h <;> simp [pure, Except.pure] at h <;> obtain ⟨_, rfl⟩ := h
    · rfl
    · exact takeClasses_hyperref d1

theorem pushChild_hyperref {d d' : DocTree} {n : TreeNode} {b : Bool}
    (h : d.pushChild n = .ok (b, d')) : d'.hyperref = (d.hyperrefActions n.data).2.2.hyperref := by
  unfold DocTree.pushChild at h
  generalize hh : d.hyperrefActions n.data = ha at h
  obtain ⟨ls, data', d1⟩ := ha
  simp only [bind, Except.bind] at h
  split at h
  · simp at h
  · split at h <;> simp [pure, Except.pure] at h <;> obtain ⟨_, rfl⟩ := h <;> rfl

theorem keeps_of_hyperref {d d' : DocTree} {x : NodeType} (h : d'.hyperref = (d.hyperrefActions x).2.2.hyperref) :
    KeepsRecords d d' := (keeps_hyperref d x).trans (keeps_of_eq (by rw [h]) (by rw [h]))

theorem keeps_run {d d' : DocTree} {op : DocOp} (h : op.run d = .ok d') : KeepsRecords d d' := by
  have tree : ∀ (r : Run Zipper), (do pure { d with tree := ← r }) = Except.ok d' → KeepsRecords d d' := by
    intro r hr
    cases r with
    | error p => simp [bind, Except.bind] at hr
    | ok z => simp [bind, Except.bind, pure, Except.pure] at hr; subst hr; exact keeps_of_eq rfl rfl
  cases op <;> simp only [DocOp.run] at h
  case push data =>
    cases hp : d.pushData data with
    | error p => simp [hp, bind, Except.bind] at h
    | ok r =>
      obtain ⟨b, d1⟩ := r
      simp [hp, bind, Except.bind, pure, Except.pure] at h; subst h
      exact keeps_of_hyperref (pushData_hyperref hp)
  case pushAndFocus data =>
    cases hp : d.pushDataAndFocus data with
    | error p => simp [hp, bind, Except.bind] at h
    | ok r =>
      obtain ⟨b, d1⟩ := r
      simp [hp, bind, Except.bind, pure, Except.pure] at h; subst h
      exact keeps_of_hyperref (pushDataAndFocus_hyperref hp)
  case pushNode data =>
    cases hp : d.pushChild (TreeNode.new data d.nodeCount none none) with
    | error p => simp [hp, bind, Except.bind] at h
    | ok r =>
      obtain ⟨b, d1⟩ := r
      simp [hp, bind, Except.bind, pure, Except.pure] at h; subst h
      exact keeps_of_hyperref (pushChild_hyperref hp)
  case pop =>
    simp only [pure, Except.pure, Except.ok.injEq] at h
    subst h
    unfold popChild
    split <;> exact keeps_of_eq rfl rfl
  case parent => exact tree _ h
  case root => exact tree _ h
  case findId id =>
    unfold walkToId at h
    cases hr : d.tree.walkToRoot with
    | error p => simp [hr, bind, Except.bind] at h
    | ok z =>
      simp only [hr, bind, Except.bind] at h
      split at h
      · cases h
      · cases hw : z.walkToNodeWithId id (z.node.height + 1) with
        | error p => simp [hw] at h
        | ok w =>
          obtain ⟨b, z'⟩ := w
          simp [hw, pure, Except.pure] at h; subst h; exact keeps_of_eq rfl rfl
  case toSection level => exact tree _ h
  case «section» title style =>
    cases hp : d.pushData (d.newSectionData title style) with
    | error p => simp [hp, bind, Except.bind] at h
    | ok r =>
      obtain ⟨b, d1⟩ := r
      simp [hp, bind, Except.bind, pure, Except.pure] at h; subst h
      exact keeps_of_hyperref (pushData_hyperref hp)
  case sectionAndFocus title style =>
    cases hp : d.pushDataAndFocus (d.newSectionData title style) with
    | error p => simp [hp, bind, Except.bind] at h
    | ok r =>
      obtain ⟨b, d1⟩ := r
      simp [hp, bind, Except.bind, pure, Except.pure] at h; subst h
      exact keeps_of_hyperref (pushDataAndFocus_hyperref hp)
  case internalTarget l => simp only [pure, Except.pure, Except.ok.injEq] at h; subst h; exact keeps_of_eq rfl rfl
  case anonTarget => simp only [pure, Except.pure, Except.ok.injEq] at h; subst h; exact keeps_of_eq rfl rfl
  case anonReference => simp only [pure, Except.pure, Except.ok.injEq] at h; subst h; exact keeps_of_eq rfl rfl
  case addClass c => simp only [pure, Except.pure, Except.ok.injEq] at h; subst h; exact keeps_of_eq rfl rfl
  case setFields data =>
    split at h <;> simp only [pure, Except.pure, Except.ok.injEq] at h <;> subst h <;> exact keeps_of_eq rfl rfl

/-- **C51.** Whatever operations are performed on a document, each node that was recorded as referring to a label stays
recorded under this label, in the same order, and each label that was a target stays a target. -/
theorem C51_records_kept (d d' : DocTree) (ops : List DocOp) (h : DocOp.runAll d ops = .ok d') :
    (∀ l, referrers d l <+: referrers d' l) ∧ ∀ l, d.hasTargetLabel l = true → d'.hasTargetLabel l = true := by
  have : KeepsRecords d d' := by
    induction ops generalizing d with
    | nil => simp [DocOp.runAll, pure, Except.pure] at h; subst h; exact .refl _
    | cons op ops ih =>
      simp only [DocOp.runAll, bind, Except.bind] at h
      cases hr : op.run d with
      | error p => simp [hr] at h
      | ok d1 => rw [hr] at h; exact (keeps_run hr).trans (ih d1 h)
  exact this

/-- **C51.** A citation reference that is added is recorded under its normalised label, after the earlier ones, and
under no other label. -/
theorem C51_citation_recorded (d d' : DocTree) (text target : Str) (b : Bool)
    (h : d.pushData (.CitationReference text target) = .ok (b, d')) (l : Str) :
    referrers d' l = referrers d l ++ (if normalizeRefname text = l then [d.nodeCount] else []) := by
  have := pushData_hyperref h
  rw [referrers, this, ← referrers]
  simp only [hyperrefActions, takeLabels, referrers_addReference]
  rfl

/-- **C51.** A manually numbered footnote reference is recorded under its label (and under the pending labels, if
there are any). -/
theorem C51_footnote_reference_recorded (d d' : DocTree) (text target : Str) (b : Bool)
    (ha : d.hyperref.accumulated = [])
    (h : d.pushData (.FootnoteReference text target .Manual) = .ok (b, d')) (l : Str) :
    referrers d' l = referrers d l ++ (if normalizeRefname text = l then [d.nodeCount] else []) := by
  have := pushData_hyperref h
  rw [referrers, this, ← referrers]
  simp only [hyperrefActions, takeLabels, ha, List.nil_append, addReferences, List.foldl_cons, List.foldl_nil,
    referrers_addReference]
  rfl

/-- Two references to one citation, with a paragraph in between. -/
example : (match DocOp.runAll (DocTree.new [] []) [.pushAndFocus (.Paragraph 0),
      .push (.CitationReference (str! "Knuth  74") []), .push (.Text (str! "and")),
      .push (.CitationReference (str! "knuth 74") [])] with
    | .ok d => referrers d (str! "knuth 74")
    | .error _ => []) = [2, 4] := by decide +kernel

end Rustla
