import Verif.Spec.Crashes
import Verif.Lemmas.Transitions
import Verif.Lemmas.Zipper
import Verif.Lemmas.Doc
import Verif.Props.Inline
import Verif.Props.Lines
/-! # Operations of the parser that do not crash -/
namespace Rustla
open Relation

/-! ## The focus of the document -/

/-- Nodes with an indentation have a rule for children. -/
theorem allowed_of_indent {n : NodeType} (h : n.bodyIndent.isSome = true) (k : Kind) :
    ∃ b, childIsAllowed n.kind k = .ok b := by
  cases n <;> first | (cases h; done) | exact ⟨_, rfl⟩

/-- A zipper whose ancestors all have an indentation. -/
structure Zipper.Sound (z : Zipper) : Prop where
  wf : z.WF
  above : ∀ e ∈ z.path, e.1.data.bodyIndent.isSome = true
  rule : ∀ k, ∃ b, childIsAllowed z.node.data.kind k = .ok b
  deep : z.node.data.bodyIndent.isSome = true ∨ z.path ≠ []

/-- A document whose focused node has an indentation, and all of its ancestors too. -/
structure DocTree.Full (d : DocTree) : Prop where
  sound : d.tree.Sound
  indent : d.sharedData.bodyIndent.isSome = true

theorem DocTree.Full.of_tree {d d' : DocTree} (h : d.Full) (e : d'.tree = d.tree) : d'.Full :=
  ⟨e ▸ h.sound, by have := h.indent; unfold DocTree.sharedData at *; rw [e]; exact this⟩

theorem full_new (stem folder : Str) : (DocTree.new stem folder).Full := by
  refine ⟨⟨trivial, ?_, allowed_of_indent (n := .Document) rfl, .inl rfl⟩, rfl⟩
  intro e he
  have he : e ∈ ([] : List (TreeNode × Nat)) := he
  simp at he

theorem data_setChildren (t : TreeNode) (c : Option (List TreeNode)) : (t.setChildren c).data = t.data := by cases t; rfl
theorem children_set (t : TreeNode) (c : Option (List TreeNode)) : (t.setChildren c).children = c := by cases t; rfl
theorem data_setData (t : TreeNode) (n : NodeType) : (t.setData n).data = n := by cases t; rfl
theorem data_new (n : NodeType) (i : Nat) (l c : Option (List Str)) : (TreeNode.new n i l c).data = n := rfl

theorem kind_eq (t : TreeNode) : t.kind = t.data.kind := rfl

/-- Adding a child under a sound focus. -/
theorem pushChild_sound {z : Zipper} (hz : z.Sound) (n : TreeNode) :
    z.pushChild n = .ok none ∨
      ∃ cs, z.node.children = some cs ∧ z.pushChild n = .ok (some { z with node := z.node.setChildren (some (cs ++ [n])) }) := by
  obtain ⟨b, hb⟩ := hz.rule n.kind
  unfold Zipper.pushChild TreeNode.pushChild
  rw [kind_eq, hb]
  cases b
  · left; simp [bind, Except.bind, pure, Except.pure]
  · cases hc : z.node.children with
    | none => left; simp [bind, Except.bind, pure, Except.pure]
    | some cs => right; exact ⟨cs, rfl, by simp [bind, Except.bind, pure, Except.pure]⟩

theorem Sound.withChildren {z : Zipper} (hz : z.Sound) (c : Option (List TreeNode)) :
    Zipper.Sound { z with node := z.node.setChildren c } :=
  ⟨hz.wf, hz.above, by simpa [data_setChildren] using hz.rule, by simpa [data_setChildren] using hz.deep⟩

/-- Adding a child and moving to it. -/
theorem pushFocus_sound {z : Zipper} (hz : z.Sound) (hi : z.node.data.bodyIndent.isSome = true) (data : NodeType) (id : Nat)
    (l c : Option (List Str)) (hr : ∀ k, ∃ b, childIsAllowed data.kind k = .ok b) :
    z.pushDataAndFocus data id l c = .ok none ∨
      ∃ z', z.pushDataAndFocus data id l c = .ok (some z') ∧ z'.Sound ∧ z'.node.data = data := by
  unfold Zipper.pushDataAndFocus
  rcases pushChild_sound hz (TreeNode.new data id l c) with h | ⟨cs, hcs, h⟩
  · left; rw [h]; rfl
  · right
    rw [h]
    simp only [bind, Except.bind]
    unfold Zipper.focusOnLastChild
    simp only [children_set]
    cases hd : cs ++ [TreeNode.new data id l c] with
    | nil => simp at hd
    | cons a as =>
      simp only []
      have hlen : as.length = cs.length := by
        have := congrArg List.length hd; simp at this; omega
      have hlt : as.length < (a :: as).length := by simp
      unfold Zipper.focusOnChild
      simp only [children_set, dif_pos hlt]
      refine ⟨_, rfl, ⟨?_, ?_, ?_, ?_⟩, ?_⟩
      · refine ⟨⟨_, children_set _ _, ?_⟩, hz.wf⟩
        rw [swapRemove_length]; simp
      · intro e he
        simp only [List.mem_cons] at he
        rcases he with rfl | he
        · simpa [data_setChildren] using hi
        · exact hz.above e he
      · have : (a :: as)[as.length]'hlt = TreeNode.new data id l c := by
          simp only [← hd, hlen]; simp
        rw [this]; exact hr
      · right; simp
      · have : (a :: as)[as.length]'hlt = TreeNode.new data id l c := by
          simp only [← hd, hlen]; simp
        rw [this]; rfl

/-- Leaving the focused node. -/
theorem focusOnParent_full {d : DocTree} (hd : d.tree.Sound) : ∃ d', d.focusOnParent = .ok d' ∧ d'.Full := by
  unfold DocTree.focusOnParent Zipper.parentOrSelf
  cases hp : d.tree.path with
  | nil =>
    have : d.tree.focusOnParent = .ok none := by unfold Zipper.focusOnParent; rw [hp]
    rw [this]
    refine ⟨d, rfl, hd, ?_⟩
    rcases hd.deep with h | h
    · exact h
    · exact absurd hp h
  | cons e rest =>
    obtain ⟨p, i⟩ := e
    obtain ⟨cs, cs', hcs, hs, _, h⟩ := hd.wf.focusOnParent_ok hp
    rw [h]
    have habove := hd.above
    rw [hp] at habove
    have hpi : p.data.bodyIndent.isSome = true := habove (p, i) (List.mem_cons_self ..)
    refine ⟨_, rfl, ⟨?_, ?_, ?_, ?_⟩, ?_⟩
    · exact hd.wf.parent h
    · exact fun e he => habove e (List.mem_cons_of_mem _ he)
    · simp only [data_setChildren]; exact allowed_of_indent hpi
    · left; simpa [data_setChildren] using hpi
    · simpa [DocTree.sharedData, data_setChildren] using hpi

theorem hyperref_indent (d : DocTree) (data : NodeType) : (d.hyperrefActions data).2.1.bodyIndent = data.bodyIndent := by
  unfold DocTree.hyperrefActions
  simp only
  split
  · simp
  · simp
  · rename_i kind _ _
    cases kind <;> simp only [] <;> (try split) <;> rfl
  · split
    · simp
    · split <;> simp [NodeType.bodyIndent]
    · split <;> simp [NodeType.bodyIndent]
    · split <;> simp [NodeType.bodyIndent]
  all_goals simp

/-! ## Outcomes -/

/-- The outcome is a value with the given property, a failure or a crash for one of the known reasons. -/
def OutOk {α : Type} (o : Out α) (Q : α → PS → Prop) : Prop :=
  match o with
  | .ok a s => Q a s
  | .fail _ => True
  | .panic p => p ∈ crashReasons

theorem OutOk.bind {α β : Type} {x : P α} {f : α → P β} {R : α → PS → Prop} {Q : β → PS → Prop} {s : PS}
    (hx : OutOk (x s) R) (hf : ∀ a s', R a s' → OutOk (f a s') Q) : OutOk ((x >>= f) s) Q := by
  change OutOk (P.bind x f s) Q
  unfold P.bind
  unfold OutOk at hx
  cases h : x s with
  | ok a s' => rw [h] at hx; exact hf a s' hx
  | fail d => trivial
  | panic p => rw [h] at hx; exact hx

theorem OutOk.pure {α : Type} {a : α} {Q : α → PS → Prop} {s : PS} (h : Q a s) : OutOk ((Pure.pure a : P α) s) Q := h

theorem OutOk.weaken {α : Type} {o : Out α} {R Q : α → PS → Prop} (h : OutOk o R) (hq : ∀ a s, R a s → Q a s) :
    OutOk o Q := by
  cases o with
  | ok a s => exact hq a s h
  | fail d => trivial
  | panic p => exact h

theorem OutOk.failed {α : Type} {Q : α → PS → Prop} {s : PS} : OutOk ((P.failed : P α) s) Q := trivial

theorem OutOk.ite {α : Type} {c : Prop} [Decidable c] {x y : P α} {Q : α → PS → Prop} {s : PS} (hx : c → OutOk (x s) Q)
    (hy : ¬ c → OutOk (y s) Q) : OutOk ((if c then x else y) s) Q := by
  split
  · exact hx ‹_›
  · exact hy ‹_›

theorem OutOk.required {α : Type} (x : Option α) {s : PS} : OutOk (P.required x s) (fun a s' => x = some a ∧ s' = s) := by
  cases x with
  | none => trivial
  | some a => exact ⟨rfl, rfl⟩

/-- A computation that may crash only for known reasons. -/
def RunOk {α : Type} (r : Run α) (Q : α → Prop) : Prop :=
  match r with
  | .ok a => Q a
  | .error p => p ∈ crashReasons

theorem OutOk.lift {α : Type} {r : Run α} {Q : α → Prop} (h : RunOk r Q) {s : PS} :
    OutOk (P.lift r s) (fun a s' => Q a ∧ s' = s) := by
  unfold P.lift
  cases r with
  | ok a => exact ⟨h, rfl⟩
  | error p => exact h

/-- Only the document has been changed, and it is full. -/
def DocOnly (s s' : PS) : Prop := s'.cursor = s.cursor ∧ s'.doc.Full

/-- Only the cursor has been changed. -/
def CurOnly (s s' : PS) : Prop := s'.doc = s.doc

theorem OutOk.doc {s : PS} : OutOk (P.doc s) (fun d s' => d = s.doc ∧ s' = s) := ⟨rfl, rfl⟩
theorem OutOk.cursor {s : PS} : OutOk (P.cursor s) (fun d s' => d = s.cursor ∧ s' = s) := ⟨rfl, rfl⟩
theorem OutOk.offset {s : PS} : OutOk (P.offset s) (fun d s' => d = s.cursor.offset ∧ s' = s) := ⟨rfl, rfl⟩
theorem OutOk.level {s : PS} : OutOk (P.level s) (fun d s' => d = s.sectionLevel ∧ s' = s) := ⟨rfl, rfl⟩
theorem OutOk.setLevel {s : PS} (n : Nat) : OutOk (P.setLevel n s) (fun _ s' => s'.cursor = s.cursor ∧ s'.doc = s.doc) :=
  ⟨rfl, rfl⟩

theorem pushDataAndFocus_ok {d : DocTree} (hd : d.Full) (data : NodeType)
    (hr : ∀ k, ∃ b, childIsAllowed data.kind k = .ok b) :
    ∃ b d', d.pushDataAndFocus data = .ok (b, d') ∧
      (b = true → d'.tree.Sound ∧ d'.sharedData.bodyIndent = data.bodyIndent) := by
  unfold DocTree.pushDataAndFocus
  have ht : ((d.hyperrefActions data).2.2.takeClasses.2).tree = d.tree :=
    (DocTree.takeClasses_tree _).trans (DocTree.hyperref_tree d data)
  have hz : ((d.hyperrefActions data).2.2.takeClasses.2).tree.Sound := ht ▸ hd.sound
  have hi : ((d.hyperrefActions data).2.2.takeClasses.2).tree.node.data.bodyIndent.isSome = true := ht ▸ hd.indent
  rcases pushFocus_sound hz hi (d.hyperrefActions data).2.1 ((d.hyperrefActions data).2.2.takeClasses.2).nodeCount
    (d.hyperrefActions data).1 ((d.hyperrefActions data).2.2.takeClasses.1) (by rw [DocTree.hyperref_kind]; exact hr) with h | ⟨z', h, h1, h2⟩
  · simp only [h, bind, Except.bind, pure, Except.pure]
    exact ⟨_, _, rfl, by simp⟩
  · simp only [h, bind, Except.bind, pure, Except.pure]
    refine ⟨_, _, rfl, fun _ => ⟨h1, ?_⟩⟩
    simp only [DocTree.sharedData, h2]
    exact hyperref_indent d data

theorem OutOk.pushFocus {s : PS} (hs : s.doc.Full) {data : NodeType} (hi : data.bodyIndent.isSome = true) :
    OutOk (P.pushFocus data s) (fun _ s' => DocOnly s s') := by
  obtain ⟨b, d', h, h'⟩ := pushDataAndFocus_ok hs data (allowed_of_indent hi)
  unfold P.pushFocus
  rw [h]
  cases b
  · trivial
  · obtain ⟨h1, h2⟩ := h' rfl
    exact ⟨rfl, h1, by simpa [h2] using hi⟩

theorem OutOk.pushFocusInner {s : PS} (hs : s.doc.Full) {data : NodeType}
    (hr : ∀ k, ∃ b, childIsAllowed data.kind k = .ok b) :
    OutOk (P.pushFocus data s) (fun _ s' => s'.cursor = s.cursor ∧ s'.doc.tree.Sound) := by
  obtain ⟨b, d', h, h'⟩ := pushDataAndFocus_ok hs data hr
  unfold P.pushFocus
  rw [h]
  cases b
  · trivial
  · exact ⟨rfl, (h' rfl).1⟩

/-- The focused node keeps its data, its ancestors are the same. -/
def SameFocus (d d' : DocTree) : Prop := d'.tree.path = d.tree.path ∧ d'.tree.node.data = d.tree.node.data

theorem SameFocus.sound {d d' : DocTree} (h : SameFocus d d') (hd : d.tree.Sound) : d'.tree.Sound := by
  obtain ⟨h1, h2⟩ := h
  refine ⟨?_, ?_, ?_, ?_⟩
  · unfold Zipper.WF; rw [h1]; exact hd.wf
  · rw [h1]; exact hd.above
  · rw [h2]; exact hd.rule
  · rw [h1, h2]; exact hd.deep

theorem SameFocus.full {d d' : DocTree} (h : SameFocus d d') (hd : d.Full) : d'.Full :=
  ⟨h.sound hd.sound, by unfold DocTree.sharedData; rw [h.2]; exact hd.indent⟩

theorem pushData_ok {d : DocTree} (hd : d.tree.Sound) (data : NodeType) :
    ∃ b d', d.pushData data = .ok (b, d') ∧ SameFocus d d' := by
  unfold DocTree.pushData Zipper.pushData
  have ht : ((d.hyperrefActions data).2.2.takeClasses.2).tree = d.tree :=
    (DocTree.takeClasses_tree _).trans (DocTree.hyperref_tree d data)
  have hz : ((d.hyperrefActions data).2.2.takeClasses.2).tree.Sound := ht ▸ hd
  rcases pushChild_sound hz (TreeNode.new (d.hyperrefActions data).2.1 ((d.hyperrefActions data).2.2.takeClasses.2).nodeCount
    (d.hyperrefActions data).1 ((d.hyperrefActions data).2.2.takeClasses.1)) with h | ⟨cs, hcs, h⟩
  · simp only [h, bind, Except.bind, pure, Except.pure]
    exact ⟨_, _, rfl, by rw [ht], by rw [ht]⟩
  · simp only [h, bind, Except.bind, pure, Except.pure]
    refine ⟨_, _, rfl, ?_, ?_⟩
    · show _ = d.tree.path; rw [← ht]
    · simp only [data_setChildren]; rw [ht]

theorem pushNode_ok {d : DocTree} (hd : d.tree.Sound) (n : TreeNode) :
    ∃ b d', d.pushChild n = .ok (b, d') ∧ SameFocus d d' := by
  unfold DocTree.pushChild
  have ht : (d.hyperrefActions n.data).2.2.tree = d.tree := DocTree.hyperref_tree d n.data
  have hz : (d.hyperrefActions n.data).2.2.tree.Sound := ht ▸ hd
  rcases pushChild_sound hz ((n.setData (d.hyperrefActions n.data).2.1).setRefnames (d.hyperrefActions n.data).1) with
    h | ⟨cs, hcs, h⟩
  · simp only [h, bind, Except.bind, pure, Except.pure]
    exact ⟨_, _, rfl, by rw [ht], by rw [ht]⟩
  · simp only [h, bind, Except.bind, pure, Except.pure]
    refine ⟨_, _, rfl, ?_, ?_⟩
    · show _ = d.tree.path; rw [← ht]
    · simp only [data_setChildren]; rw [ht]

theorem OutOk.pushInner {s : PS} (hs : s.doc.tree.Sound) (data : NodeType) :
    OutOk (P.push data s) (fun _ s' => s'.cursor = s.cursor ∧ SameFocus s.doc s'.doc) := by
  obtain ⟨b, d', h, h'⟩ := pushData_ok hs data
  unfold P.push
  rw [h]
  cases b
  · trivial
  · exact ⟨rfl, h'⟩

theorem OutOk.push {s : PS} (hs : s.doc.Full) (data : NodeType) : OutOk (P.push data s) (fun _ s' => DocOnly s s') :=
  (OutOk.pushInner hs.sound data).weaken fun _ _ h => ⟨h.1, h.2.full hs⟩

theorem OutOk.tryPush {s : PS} (hs : s.doc.Full) (data : NodeType) : OutOk (P.tryPush data s) (fun _ s' => DocOnly s s') := by
  obtain ⟨b, d', h, h'⟩ := pushData_ok hs.sound data
  unfold P.tryPush
  rw [h]
  exact ⟨rfl, h'.full hs⟩

theorem OutOk.pushNode {s : PS} (hs : s.doc.Full) (data : NodeType) :
    OutOk (P.pushNode data s) (fun _ s' => DocOnly s s') := by
  obtain ⟨b, d', h, h'⟩ := pushNode_ok hs.sound (TreeNode.new data s.doc.nodeCount none none)
  unfold P.pushNode
  rw [h]
  cases b
  · trivial
  · exact ⟨rfl, h'.full hs⟩

theorem OutOk.pushAllInner {s : PS} (hs : s.doc.tree.Sound) (nodes : List NodeType) :
    OutOk (P.pushAll nodes s) (fun _ s' => s'.cursor = s.cursor ∧ SameFocus s.doc s'.doc) := by
  induction nodes generalizing s with
  | nil => exact ⟨rfl, rfl, rfl⟩
  | cons n ns ih =>
    refine OutOk.bind (OutOk.pushInner hs n) fun _ s' h => ?_
    refine (ih (h.2.sound hs)).weaken fun _ s'' h' => ?_
    exact ⟨h'.1.trans h.1, h'.2.1.trans h.2.1, h'.2.2.trans h.2.2⟩

theorem OutOk.pushAll {s : PS} (hs : s.doc.Full) (nodes : List NodeType) :
    OutOk (P.pushAll nodes s) (fun _ s' => DocOnly s s') :=
  (OutOk.pushAllInner hs.sound nodes).weaken fun _ _ h => ⟨h.1, h.2.full hs⟩

theorem OutOk.parent {s : PS} (hs : s.doc.tree.Sound) : OutOk (P.parent s) (fun _ s' => DocOnly s s') := by
  obtain ⟨d', h, h'⟩ := focusOnParent_full hs
  unfold P.parent
  rw [h]
  exact ⟨rfl, h'⟩

theorem OutOk.popChild {s : PS} (hs : s.doc.Full) : OutOk (P.popChild s) (fun _ s' => DocOnly s s') := by
  refine ⟨rfl, ?_⟩
  refine SameFocus.full (d := s.doc) ?_ hs
  show SameFocus s.doc s.doc.popChild.2
  unfold DocTree.popChild TreeNode.popChild
  cases hc : s.doc.tree.node.children with
  | none => simp only []; exact ⟨rfl, rfl⟩
  | some cs =>
    cases hl : cs.getLast? with
    | none => simp only [hl, Option.map]; exact ⟨rfl, rfl⟩
    | some c => simp only [hl, Option.map]; exact ⟨rfl, data_setChildren _ _⟩

theorem OutOk.mapData {s : PS} (hs : s.doc.Full) {f : NodeType → NodeType} (hf : ∀ x, (f x).bodyIndent = x.bodyIndent) :
    OutOk (P.mapData f s) (fun _ s' => DocOnly s s') := by
  have hi : (f s.doc.sharedData).bodyIndent.isSome = true := by rw [hf]; exact hs.indent
  refine ⟨rfl, ⟨hs.sound.wf, hs.sound.above, ?_, ?_⟩, ?_⟩
  · show ∀ k, ∃ b, childIsAllowed ((s.doc.tree.node.setData (f s.doc.sharedData)).data.kind) k = .ok b
    rw [data_setData]; exact allowed_of_indent hi
  · left
    show (s.doc.tree.node.setData (f s.doc.sharedData)).data.bodyIndent.isSome = true
    rw [data_setData]; exact hi
  · show (s.doc.tree.node.setData (f s.doc.sharedData)).data.bodyIndent.isSome = true
    rw [data_setData]; exact hi

theorem addItem_indent (x : NodeType) : (addItem x).bodyIndent = x.bodyIndent := by unfold addItem; split <;> rfl
theorem addPoints_indent (p : Nat) (x : NodeType) : (addPoints p x).bodyIndent = x.bodyIndent := by
  unfold addPoints; split <;> rfl
theorem addAnswer_indent (a : Str) (x : NodeType) : (addAnswer a x).bodyIndent = x.bodyIndent := by
  unfold addAnswer; split <;> rfl
theorem setWidths_indent (n : Nat) (x : NodeType) : (setWidths n x).bodyIndent = x.bodyIndent := by
  unfold setWidths; split <;> rfl

theorem OutOk.anonTarget {s : PS} (hs : s.doc.Full) : OutOk (P.anonTarget s) (fun _ s' => DocOnly s s') :=
  ⟨rfl, hs.of_tree rfl⟩

theorem OutOk.internalTarget {s : PS} (hs : s.doc.Full) (l : Str) :
    OutOk (P.internalTarget l s) (fun _ s' => DocOnly s s') := ⟨rfl, hs.of_tree rfl⟩

theorem quietly_tree {d d' : DocTree} (h : ReflTransGen Quiet d d') : d'.tree = d.tree := by
  induction h with
  | refl => rfl
  | tail _ h ih => cases h <;> exact ih

theorem OutOk.inlineDoc {s : PS} (hs : s.doc.Full) (t : Str) : OutOk (P.inlineDoc t s) (fun _ s' => s'.doc.Full) := by
  unfold P.inlineDoc
  rcases (C32_terminates (some s.doc) s.cursor t _ (Nat.le_refl _)).2 with ⟨⟨nodes, d, c⟩, h⟩ | h
  · rw [h]
    have hq := (inlineParse_good h).2.1
    cases d with
    | none => exact absurd hq (by simp [QuietOpt])
    | some d => exact hs.of_tree (quietly_tree hq)
  · rw [h]; exact List.mem_cons_self ..

theorem OutOk.inlineNone {s : PS} (t : Str) : OutOk (P.inlineNone t s) (fun _ s' => s'.doc = s.doc) := by
  unfold P.inlineNone
  rcases (C32_terminates none s.cursor t _ (Nat.le_refl _)).2 with ⟨⟨nodes, d, c⟩, h⟩ | h
  · rw [h]; exact rfl
  · rw [h]; exact List.mem_cons_self ..

theorem OutOk.textBlock {E : Env} {s : PS} (h : s.cursor.offset ≤ E.src.length) (a : Option Nat) :
    OutOk (P.textBlock E a s) (fun _ s' => s' = s) := by
  unfold P.textBlock readTextBlock LineCursor.relativeOffset
  rw [if_neg (by omega)]
  exact rfl

theorem OutOk.advance {s : PS} (n : Nat) : OutOk (P.advance n s) (fun _ s' => s'.doc = s.doc) := rfl

theorem countBlank_le (ls : List Str) : countBlank ls ≤ ls.length := by
  induction ls with
  | nil => exact Nat.le_refl _
  | cons l ls ih => unfold countBlank; split <;> simp <;> omega

theorem OutOk.skipEmpty {src : List Str} {s : PS} :
    OutOk (P.skipEmpty src s) (fun _ s' => s'.doc = s.doc ∧ s.cursor.offset ≤ s'.cursor.offset ∧
      (s.cursor.offset ≤ src.length → s'.cursor.offset ≤ src.length)) := by
  refine ⟨rfl, Nat.le_add_right .., fun h => ?_⟩
  have := countBlank_le (src.drop s.cursor.offset)
  simp only [List.length_drop] at this
  show s.cursor.offset + countBlank (src.drop s.cursor.offset) ≤ _
  omega

end Rustla
