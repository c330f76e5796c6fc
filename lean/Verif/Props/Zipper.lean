import Verif.Lemmas.Place
import Verif.Model.DocTree
/-! # C13, C14, C15, C18, C19: moving around in a document and adding nodes -/
namespace Rustla
open Spec Zipper

/-! ## C13 -/

/-- **C13a.** Moving the focus to a child and back to the parent gives back exactly the zipper one started with. -/
theorem C13_child_then_parent (z z' : Zipper) (i : Nat) (h : z.focusOnChild i = some z') :
    z'.focusOnParent = .ok (some z) := focusOnParent_focusOnChild h

/-- **C13b.** The `i`-th child can be focused exactly if the focused node has an `i`-th child; the focus is then on
that child, one step further down, in the same document. -/
theorem C13_child (z : Zipper) (t : TreeNode) (hd : IsDoc z t) (i : Nat) :
    (∀ z', z.focusOnChild i = some z' → IsDoc z' t ∧ place z' = place z ++ [i] ∧
        subtree? t (place z ++ [i]) = some z'.node) ∧
    (z.focusOnChild i = none → subtree? t (place z ++ [i]) = none) := by
  refine ⟨?_, ?_⟩
  · intro z' h
    have hd' := isDoc_child h hd
    refine ⟨hd', place_child h, ?_⟩
    rw [← place_child h]; exact subtree_place hd'
  · intro h
    rw [subtree?_append, subtree_place hd]
    simp only [Option.bind_some, subtree?]
    unfold focusOnChild at h
    split at h
    · rename_i cs hcs
      split at h
      · simp at h
      · rename_i hi
        simp [hcs, List.getElem?_eq_none (Nat.le_of_not_lt hi)]
    · rename_i hcs; simp [hcs]

/-- **C13c.** The parent can be focused exactly if the focus is not on the root; the focus is then one step further
up, in the same document. -/
theorem C13_parent (z : Zipper) (t : TreeNode) (hd : IsDoc z t) :
    (place z = [] ∧ z.focusOnParent = .ok none) ∨
    (∃ z' i, z.focusOnParent = .ok (some z') ∧ place z = place z' ++ [i] ∧ IsDoc z' t ∧
      subtree? t (place z') = some z'.node) := by
  cases hp : z.path with
  | nil => left; simp [place, hp, focusOnParent]
  | cons f rest =>
    right
    obtain ⟨o, ho⟩ := isDoc_parent_ok hd
    cases o with
    | none =>
      obtain ⟨p, i⟩ := f
      obtain ⟨cs, cs', _, _, _, h⟩ := WF.focusOnParent_ok (isDoc_wf hd) hp
      rw [h] at ho; simp at ho
    | some z' =>
      obtain ⟨i, hi⟩ := place_parent ho
      exact ⟨z', i, ho, hi, isDoc_parent ho hd, subtree_place (isDoc_parent ho hd)⟩

/-! ## C14 -/

/-- The operations that move the focus. -/
inductive Nav where
  | child (i : Nat) | parent | lastChild | sibling (i : Nat) | root | section_ (level : Nat) | findId (id : Nat)

/-- Performing a move; a refused move leaves the caller with the zipper that the operation hands back. -/
def Nav.run (z : Zipper) : Nav → Run Zipper
  | .child i => pure ((z.focusOnChild i).getD z)
  | .parent => z.parentOrSelf
  | .lastChild => do pure ((← z.focusOnLastChild).getD z)
  | .sibling i => do pure (← z.focusOnSibling i).1
  | .root => z.walkToRoot
  | .section_ l => z.walkToParentSectionLevel l
  | .findId id => do pure (← z.walkToNodeWithId id (z.node.height + 1)).2

/-- Performing a sequence of moves. -/
def Nav.runAll (z : Zipper) : List Nav → Run Zipper
  | [] => pure z
  | m :: ms => do Nav.runAll (← m.run z) ms

theorem isDoc_root {z z' : Zipper} {t : TreeNode} (h : z.walkToRoot = .ok z') (hd : IsDoc z t) : IsDoc z' t := by
  unfold IsDoc at *
  rw [hd] at h
  simp only [Except.ok.injEq] at h
  subst h
  rfl

theorem isDoc_sectionAux (level : Nat) (path : List (TreeNode × Nat)) (n t : TreeNode) (z' : Zipper)
    (h : walkToSectionAux level n path = .ok z') (hd : IsDoc ⟨n, path⟩ t) : IsDoc z' t := by
  induction path generalizing n with
  | nil =>
    unfold walkToSectionAux at h
    simp only [ite_self, Except.ok.injEq] at h
    subst h; exact hd
  | cons f rest ih =>
    obtain ⟨p, i⟩ := f
    unfold walkToSectionAux at h
    split at h
    · simp only [Except.ok.injEq] at h; subst h; exact hd
    · obtain ⟨cs, cs', h1, h2, _, h3⟩ := WF.focusOnParent_ok (z := ⟨n, (p, i) :: rest⟩) (isDoc_wf hd) rfl
      dsimp only at h2
      simp only [h1, h2, bind, Except.bind] at h
      exact ih _ h (isDoc_parent h3 hd)

theorem isDoc_sibling {z : Zipper} {r : Zipper × Bool} {i : Nat} {t : TreeNode}
    (h : z.focusOnSibling i = .ok r) (hd : IsDoc z t) : IsDoc r.1 t := by
  unfold focusOnSibling at h
  obtain ⟨o, ho⟩ := isDoc_parent_ok hd
  simp only [ho, bind, Except.bind] at h
  cases o with
  | none => simp [pure, Except.pure] at h; subst h; exact hd
  | some p =>
    have hp := isDoc_parent ho hd
    simp only at h
    split at h
    · rename_i s hs
      simp [pure, Except.pure] at h; subst h; exact isDoc_child hs hp
    · simp [pure, Except.pure] at h; subst h; exact hp

theorem isDoc_lastChild {z z' : Zipper} {t : TreeNode}
    (h : z.focusOnLastChild = .ok (some z')) (hd : IsDoc z t) : IsDoc z' t := by
  unfold focusOnLastChild at h
  split at h
  · simp at h
  · simp at h
  · simp only [Except.ok.injEq] at h
    exact isDoc_child h hd

theorem isDoc_findLoop (rec : Zipper → Run (Bool × Zipper)) (t : TreeNode)
    (hrec : ∀ z r, rec z = .ok r → IsDoc z t → IsDoc r.2 t) (is : List Nat) (z : Zipper) (r : Bool × Zipper)
    (h : walkIdLoop rec is z = .ok r) (hd : IsDoc z t) : IsDoc r.2 t := by
  induction is generalizing z with
  | nil =>
    unfold walkIdLoop at h
    obtain ⟨z', hz⟩ := isDoc_parentOrSelf_ok hd
    simp [hz, bind, Except.bind, pure, Except.pure] at h
    subst h
    exact isDoc_parentOrSelf hz hd
  | cons i is ih =>
    unfold walkIdLoop at h
    split at h
    · simp at h
    · rename_i c hc
      cases hr : rec c with
      | error e => simp [hr, bind, Except.bind] at h
      | ok q =>
        have hq := hrec c q hr (isDoc_child hc hd)
        obtain ⟨b, z'⟩ := q
        simp only [hr, bind, Except.bind] at h
        split at h
        · simp [pure, Except.pure] at h; subst h; exact hq
        · exact ih _ h hq

theorem isDoc_findId (id : Nat) (t : TreeNode) (fuel : Nat) (z : Zipper) (r : Bool × Zipper)
    (h : walkToNodeWithId id fuel z = .ok r) (hd : IsDoc z t) : IsDoc r.2 t := by
  induction fuel generalizing z r with
  | zero => simp [walkToNodeWithId] at h
  | succ n ih =>
    unfold walkToNodeWithId at h
    split at h
    · simp at h; subst h; exact hd
    · split at h
      · obtain ⟨z', hz⟩ := isDoc_parentOrSelf_ok hd
        simp [hz, bind, Except.bind, pure, Except.pure] at h
        subst h
        exact isDoc_parentOrSelf hz hd
      · exact isDoc_findLoop _ t ih _ _ _ h hd

theorem isDoc_nav (m : Nav) {z z' : Zipper} {t : TreeNode} (h : m.run z = .ok z') (hd : IsDoc z t) : IsDoc z' t := by
  cases m with
  | child i =>
    simp only [Nav.run, pure, Except.pure, Except.ok.injEq] at h
    cases hc : z.focusOnChild i with
    | none => simp [hc] at h; subst h; exact hd
    | some c => simp [hc] at h; subst h; exact isDoc_child hc hd
  | parent => exact isDoc_parentOrSelf h hd
  | lastChild =>
    simp only [Nav.run] at h
    cases hl : z.focusOnLastChild with
    | error e => simp [hl, bind, Except.bind] at h
    | ok o =>
      cases o with
      | none => simp [hl, bind, Except.bind, pure, Except.pure] at h; subst h; exact hd
      | some c => simp [hl, bind, Except.bind, pure, Except.pure] at h; subst h; exact isDoc_lastChild hl hd
  | sibling i =>
    simp only [Nav.run] at h
    cases hl : z.focusOnSibling i with
    | error e => simp [hl, bind, Except.bind] at h
    | ok r => simp [hl, bind, Except.bind, pure, Except.pure] at h; subst h; exact isDoc_sibling hl hd
  | root => exact isDoc_root h hd
  | section_ l => exact isDoc_sectionAux l z.path z.node t z' h hd
  | findId id =>
    simp only [Nav.run] at h
    cases hl : walkToNodeWithId id (z.node.height + 1) z with
    | error e => simp [hl, bind, Except.bind] at h
    | ok r => simp [hl, bind, Except.bind, pure, Except.pure] at h; subst h; exact isDoc_findId _ _ _ _ _ hl hd

/-- **C14.** Whatever sequence of moves is performed on a document, the document found by walking back to the root is
the one that was there before. -/
theorem C14_navigation_preserves_document (t : TreeNode) (moves : List Nav) (z : Zipper)
    (h : Nav.runAll ⟨t, []⟩ moves = .ok z) : z.walkToRoot = .ok ⟨t, []⟩ := by
  have key : ∀ (moves : List Nav) (z0 z : Zipper), IsDoc z0 t → Nav.runAll z0 moves = .ok z → IsDoc z t := by
    intro moves
    induction moves with
    | nil => intro z0 z hd h; simp [Nav.runAll, pure, Except.pure] at h; subst h; exact hd
    | cons m ms ih =>
      intro z0 z hd h
      simp only [Nav.runAll] at h
      cases hm : m.run z0 with
      | error e => simp [hm, bind, Except.bind] at h
      | ok z1 => simp only [hm, bind, Except.bind] at h; exact ih z1 z (isDoc_nav m hm hd) h
  exact key moves ⟨t, []⟩ z rfl h

/-! ## C15 -/

/-- **C15a.** A push that is accepted adds exactly one node, as last child of the focused node, and changes nothing
else in the document. -/
theorem C15_push_appends (z z' : Zipper) (t : TreeNode) (hd : IsDoc z t) (data : NodeType) (id : Nat)
    (labels classes : Option (List Str)) (h : z.pushData data id labels classes = .ok (some z')) :
    ∃ cs, z.node.children = some cs ∧
      IsDoc z' (replaceAt t (place z) (z.node.setChildren (some (cs ++ [TreeNode.new data id labels classes])))) ∧
      place z' = place z := by
  unfold pushData pushChild TreeNode.pushChild at h
  cases ha : childIsAllowed z.node.kind (TreeNode.new data id labels classes).kind with
  | error e => simp [ha, bind, Except.bind] at h
  | ok b =>
    cases b with
    | false => simp [ha, bind, Except.bind, pure, Except.pure] at h
    | true =>
      cases hc : z.node.children with
      | none => simp [ha, hc, bind, Except.bind, pure, Except.pure] at h
      | some cs =>
        simp only [ha, hc, bind, Except.bind, pure, Except.pure, if_true, Except.ok.injEq, Option.some.injEq] at h
        subst h
        exact ⟨cs, rfl, isDoc_replace hd _, rfl⟩

/-- **C15b.** The same with moving the focus to the new node. -/
theorem C15_push_and_focus (z z' : Zipper) (t : TreeNode) (hd : IsDoc z t) (data : NodeType) (id : Nat)
    (labels classes : Option (List Str)) (h : z.pushDataAndFocus data id labels classes = .ok (some z')) :
    ∃ cs, z.node.children = some cs ∧
      IsDoc z' (replaceAt t (place z) (z.node.setChildren (some (cs ++ [TreeNode.new data id labels classes])))) ∧
      place z' = place z ++ [cs.length] ∧ z'.node = TreeNode.new data id labels classes := by
  unfold pushDataAndFocus at h
  cases hp : z.pushChild (TreeNode.new data id labels classes) with
  | error e => simp [hp, bind, Except.bind] at h
  | ok o =>
    cases o with
    | none => simp [hp, bind, Except.bind, pure, Except.pure] at h
    | some z1 =>
      obtain ⟨cs, hcs, hd1, hpl⟩ := C15_push_appends z z1 t hd data id labels classes hp
      refine ⟨cs, hcs, ?_⟩
      simp only [hp, bind, Except.bind] at h
      have hd2 := isDoc_lastChild h hd1
      have hn1 : z1.node = z.node.setChildren (some (cs ++ [TreeNode.new data id labels classes])) := by
        have := subtree_place hd1
        rw [hpl] at this
        have h2 := subtree_place (isDoc_replace hd (z.node.setChildren (some (cs ++ [TreeNode.new data id labels classes]))))
        have e : place { z with node := z.node.setChildren (some (cs ++ [TreeNode.new data id labels classes])) } = place z := rfl
        rw [e, this] at h2
        simpa using h2
      unfold focusOnLastChild at h
      rw [hn1] at h
      simp only [TreeNode.children_setChildren] at h
      split at h
      · simp at h
      · rename_i hh; simp at hh
      · rename_i c cs2 hh
        simp only [Except.ok.injEq] at h
        have hl : cs2.length = cs.length := by
          have := congrArg (Option.map List.length) hh
          simp at this; omega
        rw [hl] at h
        refine ⟨hd2, by rw [place_child h, hpl], ?_⟩
        obtain ⟨cs3, hi, h3, h4, _⟩ := focusOnChild_some h
        rw [hn1] at h3
        simp only [TreeNode.children_setChildren, Option.some.injEq] at h3
        subst h3
        rw [h4]; simp

/-- **C15c.** A push is refused exactly if the kind of the focused node does not permit the kind of the new node or
the focused node cannot have children; and a refused push leaves document and focus as they were. -/
theorem C15_refused_push_changes_nothing (d d' : DocTree) (data : NodeType)
    (h : d.pushData data = .ok (false, d') ∨ d.pushDataAndFocus data = .ok (false, d')) : d'.tree = d.tree := by
  have hy : ∀ (d : DocTree) (data : NodeType), (d.hyperrefActions data).2.2.tree = d.tree := by
    intro d data
    have h1 : ∀ (ls : List Str) (d : DocTree), (d.addTargets ls).tree = d.tree := by
      intro ls; induction ls with
      | nil => intro d; rfl
      | cons l ls ih => intro d; unfold DocTree.addTargets at *; rw [List.foldl_cons, ih]; rfl
    have h2 : ∀ (ls : List Str) (d : DocTree), (d.addReferences ls).tree = d.tree := by
      intro ls; induction ls with
      | nil => intro d; rfl
      | cons l ls ih => intro d; unfold DocTree.addReferences at *; rw [List.foldl_cons, ih]; rfl
    have h3 : (d.takeLabels data).2.tree = d.tree := by unfold DocTree.takeLabels; split <;> rfl
    have h4 : ∀ (d : DocTree) l n, (d.addTarget l n).tree = d.tree := fun _ _ _ => rfl
    have h5 : ∀ (d : DocTree) l n, (d.addReference l n).tree = d.tree := fun _ _ _ => rfl
    have h6 : ∀ (d : DocTree), d.incrementSymbolicFootnotes.tree = d.tree := fun _ => rfl
    unfold DocTree.hyperrefActions
    generalize d.takeLabels data = ld at h3 ⊢
    obtain ⟨ls, d1⟩ := ld
    dsimp only at h3 ⊢
    split <;> (repeat' split) <;> simp_all
  have hc : ∀ d : DocTree, d.takeClasses.2.tree = d.tree := by
    intro d; unfold DocTree.takeClasses; split <;> rfl
  rcases h with h | h
  · unfold DocTree.pushData at h
    generalize hq : d.hyperrefActions data = q at h
    obtain ⟨l, dt, d1⟩ := q
    have e1 := hy d data
    rw [hq] at e1
    dsimp only at h e1
    generalize hr : d1.takeClasses = r at h
    obtain ⟨c, d2⟩ := r
    have e2 := hc d1
    rw [hr] at e2
    dsimp only at h e2
    cases hz : d2.tree.pushData dt d2.nodeCount l c with
    | error e => simp [hz, bind, Except.bind] at h
    | ok o =>
      cases o with
      | none => simp [hz, bind, Except.bind, pure, Except.pure] at h; rw [← h, e2, e1]
      | some z => simp [hz, bind, Except.bind, pure, Except.pure] at h
  · unfold DocTree.pushDataAndFocus at h
    generalize hq : d.hyperrefActions data = q at h
    obtain ⟨l, dt, d1⟩ := q
    have e1 := hy d data
    rw [hq] at e1
    dsimp only at h e1
    generalize hr : d1.takeClasses = r at h
    obtain ⟨c, d2⟩ := r
    have e2 := hc d1
    rw [hr] at e2
    dsimp only at h e2
    cases hz : d2.tree.pushDataAndFocus dt d2.nodeCount l c with
    | error e => simp [hz, bind, Except.bind] at h
    | ok o =>
      cases o with
      | none => simp [hz, bind, Except.bind, pure, Except.pure] at h; rw [← h, e2, e1]
      | some z => simp [hz, bind, Except.bind, pure, Except.pure] at h

/-- The push is refused for the reasons of the table only. -/
theorem C15_when_refused (z : Zipper) (data : NodeType) (id : Nat) (labels classes : Option (List Str)) :
    z.pushData data id labels classes = .ok none ↔
      childIsAllowed z.node.kind data.kind = .ok false ∨
      (childIsAllowed z.node.kind data.kind = .ok true ∧ z.node.children = none) := by
  have hk : (TreeNode.new data id labels classes).kind = data.kind := rfl
  unfold pushData pushChild TreeNode.pushChild
  rw [hk]
  cases childIsAllowed z.node.kind data.kind with
  | error e => simp [bind, Except.bind]
  | ok b =>
    cases b with
    | false => simp [bind, Except.bind, pure, Except.pure]
    | true => cases hc : z.node.children <;> simp [bind, Except.bind, pure, Except.pure]

/-! ## C19 -/

/-- **C19.** Walking up to the parent section of level `level` never panics, keeps the document, and ends at the
nearest node from the focus upwards that is the document root node or a section of a level of at most `level`, or at the
root if there is no such node. -/
theorem C19_walk_to_section (z : Zipper) (t : TreeNode) (hd : IsDoc z t) (level : Nat) :
    ∃ z', z.walkToParentSectionLevel level = .ok z' ∧ IsDoc z' t ∧
      place z' <+: place z ∧
      (place z' = [] ∨ z'.node.data = .Document ∨
        ∃ title l style, z'.node.data = .Section title l style ∧ l ≤ level) ∧
      (∀ q m, q <+: place z → (place z').length < q.length → subtree? t q = some m →
        m.data ≠ .Document ∧ ∀ title l style, m.data = .Section title l style → level < l) := by
  obtain ⟨n, path⟩ := z
  unfold walkToParentSectionLevel
  dsimp only
  have stop_iff : ∀ d : NodeType, sectionStop level d = true ↔ (d = .Document ∨
      ∃ title l style, d = .Section title l style ∧ l ≤ level) := by
    intro d; unfold sectionStop; split
    · simp
    · rename_i title l style
      simp only [decide_eq_true_eq, reduceCtorEq, false_or]
      exact ⟨fun h => ⟨title, l, style, rfl, h⟩, fun ⟨_, _, _, e, h⟩ => by cases e; exact h⟩
    · rename_i h1 h2
      simp only [Bool.false_eq_true, false_iff, not_or]
      exact ⟨fun e => h1 e, fun ⟨a, b, c, e, _⟩ => h2 a b c e⟩
  induction path generalizing n with
  | nil =>
    refine ⟨⟨n, []⟩, ?_, hd, ?_, Or.inl rfl, ?_⟩
    · unfold walkToSectionAux; simp
    · exact List.prefix_refl _
    · intro q m hq hl _
      have := hq.length_le
      simp [place] at hl this
      subst this
      simp at hl
  | cons f rest ih =>
    obtain ⟨p, i⟩ := f
    unfold walkToSectionAux
    by_cases hs : sectionStop level n.data = true
    · rw [if_pos hs]
      refine ⟨_, rfl, hd, List.prefix_refl _, Or.inr ((stop_iff _).1 hs), ?_⟩
      intro q m hq hl _
      have := hq.length_le
      omega
    · rw [if_neg hs]
      obtain ⟨cs, cs', h1, h2, _, h3⟩ := WF.focusOnParent_ok (z := ⟨n, (p, i) :: rest⟩) (isDoc_wf hd) rfl
      dsimp only at h2
      simp only [h1, h2, bind, Except.bind]
      obtain ⟨z', w1, w2, w3, w4, w5⟩ := ih _ (isDoc_parent h3 hd)
      have hpl : place ⟨n, (p, i) :: rest⟩ = place ⟨p.setChildren (some cs'), rest⟩ ++ [i] := by simp [place]
      refine ⟨z', w1, w2, w3.trans (by rw [hpl]; exact List.prefix_append _ _), w4, ?_⟩
      intro q m hq hl hm
      by_cases hq' : q.length ≤ (place ⟨p.setChildren (some cs'), rest⟩).length
      · refine w5 q m ?_ hl hm
        rw [hpl] at hq
        exact List.prefix_of_prefix_length_le hq (List.prefix_append _ _) hq'
      · have : q = place ⟨n, (p, i) :: rest⟩ := by
          apply hq.eq_of_length
          have h4 := hq.length_le
          rw [hpl] at h4 ⊢
          simp at h4 ⊢
          omega
        subst this
        rw [subtree_place hd] at hm
        simp only [Option.some.injEq] at hm
        subst hm
        rw [stop_iff] at hs
        refine ⟨fun e => hs (Or.inl e), fun ti l st e => ?_⟩
        apply Nat.lt_of_not_le
        intro hle
        exact hs (Or.inr ⟨ti, l, st, e, hle⟩)

/-! ## C18 -/

theorem height_mem (t : TreeNode) (l : List TreeNode) (h : t ∈ l) : t.height ≤ TreeNode.heightList l := by
  induction l with
  | nil => simp at h
  | cons a as ih =>
    simp only [TreeNode.heightList]
    rcases List.mem_cons.mp h with rfl | h
    · exact Nat.le_max_left _ _
    · exact Nat.le_trans (ih h) (Nat.le_max_right _ _)

theorem height_children (t : TreeNode) (cs : List TreeNode) (h : t.children = some cs) :
    t.height = TreeNode.heightList cs + 1 := by
  cases t with
  | mk a b c d e => simp only [TreeNode.children] at h; subst h; rw [TreeNode.height]

theorem preorder_leaf (t : TreeNode) (h : t.children = none) : preorder t = [t] := by
  cases t with
  | mk a b c d e => simp only [TreeNode.children] at h; subst h; rw [preorder]

theorem preorder_node (t : TreeNode) (cs : List TreeNode) (h : t.children = some cs) :
    preorder t = t :: preorderList cs := by
  cases t with
  | mk a b c d e => simp only [TreeNode.children] at h; subst h; rw [preorder]

/-- What the search does from a focus: it finds the first node in document order, or goes to the parent. -/
def FindSpec (id : Nat) (z : Zipper) (r : Run (Bool × Zipper)) : Prop :=
  match (preorder z.node).find? (fun n => n.id == id) with
  | some n => ∃ z', r = .ok (true, z') ∧ z'.node = n ∧ (∃ q, place z' = place z ++ q)
  | none => ∃ z', r = .ok (false, z') ∧ z.parentOrSelf = .ok z'

theorem findLoop_spec (id : Nat) (rec : Zipper → Run (Bool × Zipper)) (z : Zipper) (t : TreeNode) (hd : IsDoc z t)
    (cs : List TreeNode) (hcs : z.node.children = some cs)
    (hrec : ∀ c i, z.focusOnChild i = some c → FindSpec id c (rec c)) (k : Nat) (hk : k ≤ cs.length) :
    match (preorderList (cs.drop k)).find? (fun n => n.id == id) with
    | some n => ∃ z', walkIdLoop rec (List.range' k (cs.length - k)) z = .ok (true, z') ∧ z'.node = n ∧
        (∃ q, place z' = place z ++ q)
    | none => ∃ z', walkIdLoop rec (List.range' k (cs.length - k)) z = .ok (false, z') ∧ z.parentOrSelf = .ok z' := by
  generalize hm : cs.length - k = m
  induction m generalizing k with
  | zero =>
    have : k = cs.length := by omega
    subst this
    obtain ⟨z', hz⟩ := isDoc_parentOrSelf_ok hd
    simp only [List.drop_length, preorderList, List.find?_nil, List.range'_zero, walkIdLoop]
    exact ⟨z', by simp [hz, bind, Except.bind, pure, Except.pure], hz⟩
  | succ m ih =>
    have hk' : k < cs.length := by omega
    rw [List.drop_eq_getElem_cons hk']
    simp only [preorderList, List.find?_append, List.range'_succ, walkIdLoop]
    have hc : z.focusOnChild k = some ⟨cs[k], (z.node.setChildren (some (swapRemove cs k)), k) :: z.path⟩ := by
      unfold focusOnChild
      simp only [hcs, hk', dif_pos]
    rw [hc]
    have hr := hrec _ _ hc
    generalize hcz : (⟨cs[k], (z.node.setChildren (some (swapRemove cs k)), k) :: z.path⟩ : Zipper) = c at hc hr ⊢
    have hcn : c.node = cs[k] := by rw [← hcz]
    unfold FindSpec at hr
    rw [hcn] at hr
    cases hf : (preorder cs[k]).find? (fun n => n.id == id) with
    | some n =>
      rw [hf] at hr
      obtain ⟨z', h1, h2, q, h3⟩ := hr
      simp only [Option.some_or]
      refine ⟨z', by simp [h1, bind, Except.bind, pure, Except.pure], h2, [k] ++ q, ?_⟩
      rw [h3, place_child hc, List.append_assoc]
    | none =>
      rw [hf] at hr
      obtain ⟨z', h1, h2⟩ := hr
      have hback : c.parentOrSelf = .ok z := by
        simp [parentOrSelf, focusOnParent_focusOnChild hc, bind, Except.bind, pure, Except.pure]
      rw [hback] at h2
      simp only [Except.ok.injEq] at h2
      subst h2
      simp only [h1, bind, Except.bind, Option.none_or]
      exact ih (k + 1) (by omega) (by omega)

theorem find_spec (id : Nat) (fuel : Nat) (z : Zipper) (t : TreeNode) (hd : IsDoc z t) (hf : z.node.height ≤ fuel) :
    FindSpec id z (walkToNodeWithId id fuel z) := by
  induction fuel generalizing z with
  | zero =>
    cases hz : z.node with
    | mk a b c d e => cases e <;> simp [hz, TreeNode.height] at hf
  | succ n ih =>
    unfold walkToNodeWithId FindSpec
    by_cases hid : z.node.id = id
    · have : (preorder z.node).find? (fun n => n.id == id) = some z.node := by
        cases hc : z.node.children with
        | none => rw [preorder_leaf _ hc]; simp [hid]
        | some cs => rw [preorder_node _ _ hc]; simp [hid]
      rw [this, if_pos hid]
      exact ⟨z, rfl, rfl, [], by simp⟩
    · rw [if_neg hid]
      cases hc : z.node.children with
      | none =>
        rw [preorder_leaf _ hc]
        obtain ⟨z', hz⟩ := isDoc_parentOrSelf_ok hd
        simp only [List.find?_cons, List.find?_nil]
        have hb : (z.node.id == id) = false := by simpa using hid
        rw [hb]
        exact ⟨z', by simp [hz, bind, Except.bind, pure, Except.pure], hz⟩
      | some cs =>
        rw [preorder_node _ _ hc]
        have hb : (z.node.id == id) = false := by simpa using hid
        rw [List.find?_cons, hb]
        have := findLoop_spec id (walkToNodeWithId id n) z t hd cs hc ?_ 0 (by omega)
        · simpa [List.range_eq_range'] using this
        · intro c i hci
          apply ih _ (isDoc_child hci hd)
          obtain ⟨cs', hi, h1, h2, _⟩ := focusOnChild_some hci
          rw [hc] at h1
          simp only [Option.some.injEq] at h1
          subst h1
          rw [h2]
          have := height_mem cs[i] cs (List.getElem_mem hi)
          rw [height_children _ _ hc] at hf
          omega

/-- **C18.** Walking to an identifier that does not exceed the node counter never panics, keeps the document and ends on
the first node (in document order) that has this identifier; if there is none it ends at the root. -/
theorem C18_walk_by_id (d : DocTree) (t : TreeNode) (hd : IsDoc d.tree t) (id : Nat) (hid : id ≤ d.nodeCount) :
    ∃ d', d.walkToId id = .ok d' ∧ IsDoc d'.tree t ∧
      (match (preorder t).find? (fun n => n.id == id) with
        | some n => d'.tree.node = n
        | none => place d'.tree = []) := by
  have hr : d.tree.walkToRoot = .ok ⟨t, []⟩ := hd
  have hs := find_spec id (t.height + 1) ⟨t, []⟩ t rfl (Nat.le_succ _)
  unfold FindSpec at hs
  unfold DocTree.walkToId
  simp only [hr, bind, Except.bind]
  rw [if_neg (by omega)]
  cases hf : (preorder t).find? (fun n => n.id == id) with
  | some n =>
    dsimp only at hs
    rw [hf] at hs
    obtain ⟨z', h1, h2, _⟩ := hs
    simp only [h1]
    exact ⟨_, rfl, isDoc_findId id t _ _ _ h1 rfl, h2⟩
  | none =>
    dsimp only at hs
    rw [hf] at hs
    obtain ⟨z', h1, h2⟩ := hs
    simp only [h1]
    refine ⟨_, rfl, isDoc_findId id t _ _ _ h1 rfl, ?_⟩
    simp [parentOrSelf, focusOnParent, bind, Except.bind, pure, Except.pure] at h2
    subst h2
    rfl

/-- An identifier above the node counter makes the walk panic. -/
theorem C18_unknown_id_panics (d : DocTree) (t : TreeNode) (hd : IsDoc d.tree t) (id : Nat) (hid : d.nodeCount < id) :
    d.walkToId id = .error (.explicit "walkers.rs walk_to_node_with_id") := by
  have hr : d.tree.walkToRoot = .ok ⟨t, []⟩ := hd
  unfold DocTree.walkToId
  simp only [hr, bind, Except.bind]
  rw [if_pos hid]

/-! ## Concrete cases -/

/-- A document with a section holding a bullet list of two items, focused on the second item. -/
def sampleDoc : DocTree :=
  let step (r : Run (Bool × DocTree)) (f : DocTree → Run (Bool × DocTree)) : Run (Bool × DocTree) := do f (← r).2
  let d0 : Run (Bool × DocTree) := .ok (true, DocTree.new [] [])
  let d1 := step d0 (·.pushDataAndFocus (.Section (str! "Title") 1 (.Under '=')))
  let d2 := step d1 (·.pushDataAndFocus (.BulletList '*' 0 2))
  let d3 := step d2 (·.pushData (.BulletListItem '*' 0 2))
  let d4 := step d3 (·.pushDataAndFocus (.BulletListItem '*' 0 2))
  match d4 with
  | .ok (_, d) => d
  | .error _ => DocTree.new [] []

example : place sampleDoc.tree = [0, 0, 1] := by decide +kernel
example : ∃ t, IsDoc sampleDoc.tree t := WF.isDoc (by
  simp only [sampleDoc, WF]; exact ⟨⟨_, rfl, by decide⟩, ⟨_, rfl, by decide⟩, ⟨_, rfl, by decide⟩, trivial⟩)
example : (match sampleDoc.tree.walkToParentSectionLevel 1 with | .ok z => place z | .error _ => [9]) = [0] := by
  decide +kernel
example : (match sampleDoc.walkToId 3 with | .ok d => place d.tree | .error _ => [9]) = [0, 0, 0] := by decide +kernel
example : (match Nav.runAll sampleDoc.tree [.parent, .child 0, .sibling 1, .root, .findId 4, .lastChild] with
    | .ok z => some (place z) | .error _ => none) = none := by decide +kernel
example : (match Nav.runAll sampleDoc.tree [.parent, .child 0, .sibling 1, .root, .findId 4] with
    | .ok z => some (place z) | .error _ => none) = some [0, 0, 1] := by decide +kernel
example : (match sampleDoc.pushData .Transition with | .ok (b, _) => some b | .error _ => none) = some false := by
  decide +kernel

end Rustla
