import Verif.Lemmas.DocSteps
import Verif.Lemmas.Kinds
/-!
# C16, C17: the shape of every document that can be built
-/
namespace Rustla
open Spec

/-! ## Specification -/

/-- Every parent/child pair of the tree satisfies `R`. -/
def AllPairs (R : TreeNode → TreeNode → Prop) (t : TreeNode) : Prop :=
  ∀ n ∈ preorder t, ∀ cs, n.children = some cs → ∀ c ∈ cs, R n c

/-- Every node of the tree satisfies `P`. -/
def AllNodes (P : TreeNode → Prop) (t : TreeNode) : Prop := ∀ n ∈ preorder t, P n

/-- The kinds of nodes that are lists, with the kind of their items. -/
def listItemKind : Kind → Option Kind
  | .BulletList => some .BulletListItem
  | .EnumeratedList => some .EnumeratedListItem
  | .DefinitionList => some .DefinitionListItem
  | .FieldList => some .FieldListItem
  | .OptionList => some .OptionListItem
  | .LineBlock => some .Line
  | _ => none

/-- The kinds of nodes that stand inside a line of text. -/
def isInlineKind : Kind → Bool
  | .Abbreviation | .AbsoluteURI | .Acronym | .AutomaticSectionNumbering | .CitationReference | .Emphasis
  | .FootnoteReference | .Generated | .Image | .Inline | .InterpretedText | .Literal | .Math | .Problematic | .Reference
  | .StrongEmphasis | .Subscript | .SubstitutionReference | .Superscript | .Target | .Text | .TitleReference
  | .WhiteSpace => true
  | _ => false

/-! ## Lemmas -/

theorem AllPairs_iff (R : TreeNode → TreeNode → Prop) (t : TreeNode) :
    AllPairs R t ↔ ∀ cs, t.children = some cs → ∀ c ∈ cs, R t c ∧ AllPairs R c := by
  cases hc : t.children with
  | none => simp [AllPairs, preorder_leaf _ hc, hc]
  | some cs =>
    have hm : ∀ n, n ∈ preorderList cs ↔ ∃ c ∈ cs, n ∈ preorder c := by
      intro n
      clear hc
      induction cs with
      | nil => simp [preorderList]
      | cons c cs ih => simp [preorderList, ih]
    simp only [AllPairs, preorder_node _ _ hc, List.mem_cons, hm, Option.some.injEq, forall_eq']
    constructor
    · intro h c hcm
      exact ⟨h t (Or.inl rfl) cs hc c hcm, fun n hn => h n (Or.inr ⟨c, hcm, hn⟩)⟩
    · rintro h n (rfl | ⟨c, hcm, hn⟩) cs' hcs' c' hc'
      · rw [hc] at hcs'; cases hcs'; exact (h c' hc').1
      · exact (h c hcm).2 n hn cs' hcs' c' hc'

theorem AllPairs_subtree {R : TreeNode → TreeNode → Prop} {t m : TreeNode} {p : List Nat} (h : AllPairs R t)
    (hs : subtree? t p = some m) : AllPairs R m := by
  induction p generalizing t with
  | nil => simp [subtree?] at hs; subst hs; exact h
  | cons i is ih =>
    simp only [subtree?] at hs
    cases hc : t.children with
    | none => simp [hc] at hs
    | some cs =>
      cases hi : cs[i]? with
      | none => simp [hc, hi] at hs
      | some c =>
        simp only [hc, hi, Option.bind_some] at hs
        exact ih (((AllPairs_iff R t).1 h cs hc c (List.mem_of_getElem? hi)).2) hs

/-- Replacing a node by one that its neighbours cannot tell apart. -/
theorem AllPairs_replace {R : TreeNode → TreeNode → Prop} {t m n : TreeNode} {p : List Nat} (h : AllPairs R t)
    (hs : subtree? t p = some m) (hn : AllPairs R n)
    (hup : ∀ a, R a m → R a n) (hset : ∀ a cs c, R a c → R (a.setChildren cs) c)
    (hset' : ∀ a cs c, R a c → R a (c.setChildren cs)) : AllPairs R (replaceAt t p n) := by
  have key : ∀ (p : List Nat) (t : TreeNode), AllPairs R t → subtree? t p = some m →
      AllPairs R (replaceAt t p n) ∧ ∀ a, R a t → R a (replaceAt t p n) := by
    intro p
    induction p with
    | nil =>
      intro t h hs
      simp [subtree?] at hs; subst hs
      exact ⟨hn, hup⟩
    | cons i is ih =>
      intro t h hs
      simp only [subtree?] at hs
      cases hc : t.children with
      | none => simp [hc] at hs
      | some cs =>
        cases hi : cs[i]? with
        | none => simp [hc, hi] at hs
        | some c =>
          simp only [hc, hi, Option.bind_some] at hs
          have ht := (AllPairs_iff R t).1 h cs hc
          have hcm := ht c (List.mem_of_getElem? hi)
          obtain ⟨k1, k2⟩ := ih c hcm.2 hs
          simp only [replaceAt, hc, hi]
          refine ⟨?_, fun a ha => hset' _ _ _ ha⟩
          rw [AllPairs_iff]
          intro cs' hcs' c' hc'
          simp only [TreeNode.children_setChildren, Option.some.injEq] at hcs'
          subst hcs'
          rcases List.mem_or_eq_of_mem_set hc' with hm | rfl
          · exact ⟨hset _ _ _ (ht c' hm).1, (ht c' hm).2⟩
          · exact ⟨hset _ _ _ (k2 _ hcm.1), k1⟩
  exact (key p t h hs).1

theorem AllPairs_leafless {R : TreeNode → TreeNode → Prop} {n : TreeNode}
    (h : n.children = if n.kind.hasChildren then some [] else none) : AllPairs R n := by
  rw [AllPairs_iff]
  intro cs hcs
  rw [h] at hcs
  split at hcs
  · cases hcs; simp
  · simp at hcs

/-- A relation between parents and children that looks at their kinds only. -/
theorem AllPairs_step {Q : Kind → Kind → Prop} (hQ : ∀ a b, childIsAllowed a b = .ok true → Q a b)
    {t t' : TreeNode} {n n' : Nat} (h : AllPairs (fun a b => Q a.kind b.kind) t) (hs : DocStep t n t' n') :
    AllPairs (fun a b => Q a.kind b.kind) t' := by
  cases hs with
  | same => exact h
  | added p m new cs hs hc hn hi ha =>
    refine AllPairs_replace h hs ?_ (by simp) (by simp) (by simp)
    have hm := (AllPairs_iff _ _).1 (AllPairs_subtree h hs) cs hc
    rw [AllPairs_iff]
    intro cs' hcs' c hcm
    simp only [TreeNode.children_setChildren, Option.some.injEq] at hcs'
    subst hcs'
    simp only [List.mem_append, List.mem_singleton] at hcm
    rcases hcm with hcm | rfl
    · simpa using hm c hcm
    · exact ⟨by simpa using hQ _ _ ha, AllPairs_leafless hn⟩
  | removed p m cs hs hc =>
    refine AllPairs_replace h hs ?_ (by simp) (by simp) (by simp)
    have hm := (AllPairs_iff _ _).1 (AllPairs_subtree h hs) cs hc
    rw [AllPairs_iff]
    intro cs' hcs' c hcm
    simp only [TreeNode.children_setChildren, Option.some.injEq] at hcs'
    subst hcs'
    simpa using hm c ((List.dropLast_sublist cs).subset hcm)
  | changed p m data hs hk =>
    refine AllPairs_replace h hs ?_ (by simp [hk]) (by simp) (by simp)
    have hm := (AllPairs_iff _ _).1 (AllPairs_subtree h hs)
    rw [AllPairs_iff]
    intro cs' hcs' c hcm
    simp only [TreeNode.children_setData] at hcs'
    simpa [hk] using hm cs' hcs' c hcm

theorem AllNodes_iff (P : TreeNode → Prop) (t : TreeNode) :
    AllNodes P t ↔ P t ∧ ∀ cs, t.children = some cs → ∀ c ∈ cs, AllNodes P c := by
  cases hc : t.children with
  | none => simp [AllNodes, preorder_leaf _ hc]
  | some cs =>
    have hm : ∀ n, n ∈ preorderList cs ↔ ∃ c ∈ cs, n ∈ preorder c := by
      intro n
      clear hc
      induction cs with
      | nil => simp [preorderList]
      | cons c cs ih => simp [preorderList, ih]
    simp only [AllNodes, preorder_node _ _ hc, List.mem_cons, hm, Option.some.injEq, forall_eq']
    constructor
    · intro h
      exact ⟨h t (Or.inl rfl), fun c hcm n hn => h n (Or.inr ⟨c, hcm, hn⟩)⟩
    · rintro ⟨h1, h2⟩ n (rfl | ⟨c, hcm, hn⟩)
      · exact h1
      · exact h2 c hcm n hn

theorem AllNodes_subtree {P : TreeNode → Prop} {t m : TreeNode} {p : List Nat} (h : AllNodes P t)
    (hs : subtree? t p = some m) : AllNodes P m := by
  induction p generalizing t with
  | nil => simp [subtree?] at hs; subst hs; exact h
  | cons i is ih =>
    simp only [subtree?] at hs
    cases hc : t.children with
    | none => simp [hc] at hs
    | some cs =>
      cases hi : cs[i]? with
      | none => simp [hc, hi] at hs
      | some c =>
        simp only [hc, hi, Option.bind_some] at hs
        exact ih (((AllNodes_iff P t).1 h).2 cs hc c (List.mem_of_getElem? hi)) hs

theorem AllNodes_replace {P : TreeNode → Prop} {t m n : TreeNode} {p : List Nat} (h : AllNodes P t)
    (hs : subtree? t p = some m) (hn : AllNodes P n)
    (hset : ∀ a cs cs', P a → a.children = some cs → P (a.setChildren (some cs'))) : AllNodes P (replaceAt t p n) := by
  induction p generalizing t with
  | nil => exact hn
  | cons i is ih =>
    simp only [subtree?] at hs
    cases hc : t.children with
    | none => simp [hc] at hs
    | some cs =>
      cases hi : cs[i]? with
      | none => simp [hc, hi] at hs
      | some c =>
        simp only [hc, hi, Option.bind_some] at hs
        have ht := (AllNodes_iff P t).1 h
        have k1 := ih (ht.2 cs hc c (List.mem_of_getElem? hi)) hs
        simp only [replaceAt, hc, hi]
        rw [AllNodes_iff]
        refine ⟨hset _ _ _ ht.1 hc, ?_⟩
        intro cs' hcs' c' hc'
        simp only [TreeNode.children_setChildren, Option.some.injEq] at hcs'
        subst hcs'
        rcases List.mem_or_eq_of_mem_set hc' with hm | rfl
        · exact ht.2 cs hc c' hm
        · exact k1

/-- Being a container is a matter of the kind of a node. -/
def ContainerOk (n : TreeNode) : Prop := n.children.isSome = n.kind.hasChildren

theorem ContainerOk_step {t t' : TreeNode} {n n' : Nat} (h : AllNodes ContainerOk t) (hs : DocStep t n t' n') :
    AllNodes ContainerOk t' := by
  have hset : ∀ (a : TreeNode) cs cs', ContainerOk a → a.children = some cs → ContainerOk (a.setChildren (some cs')) := by
    intro a cs cs' h1 h2
    unfold ContainerOk at *
    simpa [h2] using h1
  cases hs with
  | same => exact h
  | added p m new cs hs hc hn hi ha =>
    refine AllNodes_replace h hs ?_ hset
    have hm := (AllNodes_iff _ _).1 (AllNodes_subtree h hs)
    rw [AllNodes_iff]
    refine ⟨hset _ _ _ hm.1 hc, ?_⟩
    intro cs' hcs' c hcm
    simp only [TreeNode.children_setChildren, Option.some.injEq] at hcs'
    subst hcs'
    simp only [List.mem_append, List.mem_singleton] at hcm
    rcases hcm with hcm | rfl
    · exact hm.2 cs hc c hcm
    · rw [AllNodes_iff]
      refine ⟨?_, ?_⟩
      · unfold ContainerOk; rw [hn]; split <;> simp_all
      · intro cs' hcs'
        rw [hn] at hcs'
        split at hcs'
        · cases hcs'; simp
        · simp at hcs'
  | removed p m cs hs hc =>
    refine AllNodes_replace h hs ?_ hset
    have hm := (AllNodes_iff _ _).1 (AllNodes_subtree h hs)
    rw [AllNodes_iff]
    refine ⟨hset _ _ _ hm.1 hc, ?_⟩
    intro cs' hcs' c hcm
    simp only [TreeNode.children_setChildren, Option.some.injEq] at hcs'
    subst hcs'
    exact hm.2 cs hc c ((List.dropLast_sublist cs).subset hcm)
  | changed p m data hs hk =>
    refine AllNodes_replace h hs ?_ hset
    have hm := (AllNodes_iff _ _).1 (AllNodes_subtree h hs)
    rw [AllNodes_iff]
    refine ⟨?_, ?_⟩
    · have := hm.1; unfold ContainerOk at *; simpa [hk] using this
    · intro cs' hcs' c hcm
      simp only [TreeNode.children_setData] at hcs'
      exact hm.2 cs' hcs' c hcm

/-! ## C16 -/

/-- **C16.** In every document that can be built by the document-building operations, every node is of a kind that the
rule table of its parent accepts. -/
theorem C16_permitted_pairs (d : DocTree) (hr : Reachable d) :
    ∃ t, IsDoc d.tree t ∧ AllPairs (fun p c => childIsAllowed p.kind c.kind = .ok true) t := by
  refine reachable_invariant (fun t _ => AllPairs (fun p c => childIsAllowed p.kind c.kind = .ok true) t) ?_ ?_ hr
  · exact AllPairs_leafless rfl
  · intro t n t' n' h hs
    exact AllPairs_step (Q := fun a b => childIsAllowed a b = .ok true) (fun _ _ h => h) h hs

/-- **C16, readable consequences.** Lists contain only their items and empty lines; paragraphs contain only inline
nodes; sections occur only directly inside the document or inside sections; list items, table entries and the
alternatives of questions occur only inside the corresponding containers. -/
theorem C16_readable (d : DocTree) (hr : Reachable d) :
    ∃ t, IsDoc d.tree t ∧ AllPairs (fun p c =>
      (∀ item, listItemKind p.kind = some item → c.kind = item ∨ c.kind = .EmptyLine) ∧
      (p.kind = .Paragraph → isInlineKind c.kind = true) ∧
      (c.kind = .Section → p.kind = .Document ∨ p.kind = .Section) ∧
      (c.kind = .Document → p.kind = .Document) ∧
      (∀ list item, listItemKind list = some item → c.kind = item → p.kind = list) ∧
      (p.kind = .ListTable → c.kind = .BulletList) ∧
      (c.kind = .Attribution → p.kind = .BlockQuote) ∧
      (c.kind = .AplusPickChoice → p.kind = .AplusPickChoices)) t := by
  have key : ∀ a b : Kind, childIsAllowed a b = .ok true →
      (∀ item, listItemKind a = some item → b = item ∨ b = .EmptyLine) ∧
      (a = .Paragraph → isInlineKind b = true) ∧
      (b = .Section → a = .Document ∨ a = .Section) ∧
      (b = .Document → a = .Document) ∧
      (∀ list item, listItemKind list = some item → b = item → a = list) ∧
      (a = .ListTable → b = .BulletList) ∧
      (b = .Attribution → a = .BlockQuote) ∧
      (b = .AplusPickChoice → a = .AplusPickChoices) := by
    intro a b h
    have h1 := forall_kinds (P := fun a b => childIsAllowed a b = .ok true →
      (listItemKind a).all (fun item => b == item || b == .EmptyLine) = true ∧
      (a = .Paragraph → isInlineKind b = true) ∧
      (b = .Section → a = .Document ∨ a = .Section) ∧
      (b = .Document → a = .Document) ∧
      (a = .ListTable → b = .BulletList) ∧
      (b = .Attribution → a = .BlockQuote) ∧
      (b = .AplusPickChoice → a = .AplusPickChoices)) (by decide +kernel) a b h
    have h2 := forall_kinds (P := fun list a =>
      (listItemKind list).all (fun item => !decide (childIsAllowed a item = .ok true) || a == list) = true) (by decide +kernel)
    obtain ⟨c1, c2, c3, c4, c5, c6, c7⟩ := h1
    refine ⟨?_, c2, c3, c4, ?_, c5, c6, c7⟩
    · intro item hi; rw [hi] at c1; simpa using c1
    · rintro list item hl rfl
      have := h2 list a
      rw [hl] at this
      simp only [Option.all_some, h, decide_true, Bool.not_true, Bool.false_or, beq_iff_eq] at this
      exact this
  obtain ⟨t, h1, h2⟩ := C16_permitted_pairs d hr
  exact ⟨t, h1, fun n hn cs hcs c hc => key _ _ (h2 n hn cs hcs c hc)⟩

/-- **C16, leaves.** In every document that can be built, whether a node has a list of children at all is decided by
its kind; in particular text, white space, empty lines, transitions, literal blocks, comments and images never have
children. -/
theorem C16_leaves (d : DocTree) (hr : Reachable d) :
    ∃ t, IsDoc d.tree t ∧ AllNodes (fun n => (n.children.isSome = n.kind.hasChildren) ∧
      (n.kind = .Text ∨ n.kind = .WhiteSpace ∨ n.kind = .EmptyLine ∨ n.kind = .Transition ∨ n.kind = .LiteralBlock ∨
        n.kind = .Comment ∨ n.kind = .Image → n.children = none)) t := by
  obtain ⟨t, h1, h2⟩ := reachable_invariant (fun t _ => AllNodes ContainerOk t)
    (by rw [AllNodes_iff]; exact ⟨rfl, by intro cs h; cases h; simp⟩) (fun t n t' n' h hs => ContainerOk_step h hs) hr
  refine ⟨t, h1, fun n hn => ⟨h2 n hn, ?_⟩⟩
  have h := h2 n hn
  unfold ContainerOk at h
  rintro (e | e | e | e | e | e | e) <;> rw [e] at h <;>
    · cases hc : n.children with
      | none => rfl
      | some cs => rw [hc, Option.isSome_some] at h; exact absurd h (by decide)

/-! ## C17 -/

/-- The identifiers of a tree. -/
def idsOf (t : TreeNode) : List Nat := (preorder t).map TreeNode.id
/-- The identifiers of a list of trees. -/
def idsOfList (ts : List TreeNode) : List Nat := (preorderList ts).map TreeNode.id

theorem idsOf_node (t : TreeNode) (cs : List TreeNode) (h : t.children = some cs) :
    idsOf t = t.id :: idsOfList cs := by simp [idsOf, idsOfList, preorder_node _ _ h]
theorem idsOf_leaf (t : TreeNode) (h : t.children = none) : idsOf t = [t.id] := by
  simp [idsOf, preorder_leaf _ h]
theorem idsOfList_append (a b : List TreeNode) : idsOfList (a ++ b) = idsOfList a ++ idsOfList b := by
  induction a with
  | nil => simp [idsOfList, preorderList]
  | cons x xs ih =>
    simp only [idsOfList, List.cons_append, preorderList, List.map_append, List.append_assoc] at *
    rw [ih]
theorem idsOfList_cons (a : TreeNode) (b : List TreeNode) : idsOfList (a :: b) = idsOf a ++ idsOfList b := by
  simp [idsOfList, idsOf, preorderList]

/-- The identifiers of a tree in which one node is replaced. -/
theorem idsOf_replace {t m : TreeNode} {p : List Nat} (hs : subtree? t p = some m) :
    ∃ a b, idsOf t = a ++ idsOf m ++ b ∧ ∀ n, idsOf (replaceAt t p n) = a ++ idsOf n ++ b := by
  induction p generalizing t with
  | nil => simp [subtree?] at hs; subst hs; exact ⟨[], [], by simp, by simp [replaceAt]⟩
  | cons i is ih =>
    simp only [subtree?] at hs
    cases hc : t.children with
    | none => simp [hc] at hs
    | some cs =>
      cases hi : cs[i]? with
      | none => simp [hc, hi] at hs
      | some c =>
        simp only [hc, hi, Option.bind_some] at hs
        obtain ⟨a, b, h1, h2⟩ := ih hs
        obtain ⟨hil, rfl⟩ := List.getElem?_eq_some_iff.1 hi
        refine ⟨t.id :: idsOfList (cs.take i) ++ a, b ++ idsOfList (cs.drop (i + 1)), ?_, ?_⟩
        · rw [idsOf_node _ _ hc]
          conv => lhs; rw [← List.take_append_drop i cs, List.drop_eq_getElem_cons hil]
          rw [idsOfList_append, idsOfList_cons, h1]
          simp
        · intro n
          simp only [replaceAt, hc, hi]
          rw [idsOf_node _ _ (TreeNode.children_setChildren _ _), List.set_eq_take_append_cons_drop, if_pos hil,
            idsOfList_append, idsOfList_cons, h2]
          simp

/-- **C17.** In every document that can be built, no two nodes have the same identifier and every identifier is smaller
than the node counter of the document. -/
theorem C17_unique_ids (d : DocTree) (hr : Reachable d) :
    ∃ t, IsDoc d.tree t ∧ ((preorder t).map TreeNode.id).Nodup ∧
      ∀ n ∈ preorder t, n.id < d.nodeCount := by
  have step : ∀ t n t' n', ((idsOf t).Nodup ∧ ∀ i ∈ idsOf t, i < n) → DocStep t n t' n' →
      ((idsOf t').Nodup ∧ ∀ i ∈ idsOf t', i < n') := by
    rintro t n t' n' ⟨h1, h2⟩ hs
    cases hs with
    | same => exact ⟨h1, h2⟩
    | added p m new cs hs hc hn hi ha =>
      obtain ⟨a, b, e1, e2⟩ := idsOf_replace hs
      have hnew : idsOf new = [n] := by
        rw [← hi]
        rw [hi]
        split at hn
        · rw [idsOf_node _ _ hn, hi]; rfl
        · rw [idsOf_leaf _ hn, hi]
      have e3 : idsOf (m.setChildren (some (cs ++ [new]))) = idsOf m ++ [n] := by
        rw [idsOf_node _ _ (TreeNode.children_setChildren _ _), idsOf_node m cs hc, idsOfList_append,
          idsOfList_cons, hnew]
        simp [idsOfList, preorderList]
      have e4 := e2 (m.setChildren (some (cs ++ [new])))
      rw [e3] at e4
      have hp : (idsOf (replaceAt t p (m.setChildren (some (cs ++ [new]))))).Perm (n :: idsOf t) := by
        rw [e4, e1]
        have : a ++ (idsOf m ++ [n]) ++ b = (a ++ idsOf m) ++ n :: b := by simp
        rw [this]
        exact List.perm_middle
      refine ⟨hp.nodup_iff.2 (List.nodup_cons.2 ⟨fun hmem => absurd (h2 n hmem) (Nat.lt_irrefl n), h1⟩), ?_⟩
      intro i him
      have := hp.mem_iff.1 him
      simp only [List.mem_cons] at this
      rcases this with rfl | hm
      · omega
      · have := h2 i hm; omega
    | removed p m cs hs hc =>
      obtain ⟨a, b, e1, e2⟩ := idsOf_replace hs
      have hsub : (idsOf (replaceAt t p (m.setChildren (some cs.dropLast)))).Sublist (idsOf t) := by
        rw [e1, e2, idsOf_node _ _ (TreeNode.children_setChildren _ _), idsOf_node m cs hc]
        refine List.Sublist.append_right (List.Sublist.append_left ?_ _) _
        simp only [TreeNode.id_setChildren]
        refine List.Sublist.cons_cons _ ?_
        rcases List.eq_nil_or_concat cs with rfl | ⟨l, x, rfl⟩
        · simp
        · simp only [List.concat_eq_append, List.dropLast_concat]
          rw [idsOfList_append]
          exact List.sublist_append_left _ _
      exact ⟨h1.sublist hsub, fun i hi => h2 i (hsub.subset hi)⟩
    | changed p m data hs hk =>
      obtain ⟨a, b, e1, e2⟩ := idsOf_replace hs
      have e3 : idsOf (m.setData data) = idsOf m := by
        cases hc : m.children with
        | none => rw [idsOf_leaf m hc, idsOf_leaf (m.setData data) (by simpa using hc)]; simp
        | some cs => rw [idsOf_node m cs hc, idsOf_node (m.setData data) cs (by simpa using hc)]; simp
      have : idsOf (replaceAt t p (m.setData data)) = idsOf t := by rw [e2, e3, e1]
      rw [this]; exact ⟨h1, h2⟩
  obtain ⟨t, h1, h2, h3⟩ := reachable_invariant
    (fun t n => (idsOf t).Nodup ∧ ∀ i ∈ idsOf t, i < n)
    ⟨by rw [idsOf_node _ [] rfl]; simp [idsOfList, preorderList],
      by rw [idsOf_node _ [] rfl]; simp [idsOfList, preorderList, TreeNode.new, TreeNode.id]⟩ step hr
  exact ⟨t, h1, h2, fun n hn => h3 _ (List.mem_map_of_mem hn)⟩

/-! ## The hypotheses are met -/

/-- A history that builds two sections, a bullet list, a paragraph with text that is later removed, and a refused push. -/
def sampleHistory : List DocOp :=
  [.sectionAndFocus (str! "One") (.Under '='), .internalTarget (str! "lbl"), .pushAndFocus (.BulletList '*' 0 2),
   .push .Transition, .pushAndFocus (.BulletListItem '*' 0 2), .pushAndFocus (.Paragraph 2),
   .push (.Text (str! "hello")), .pop, .push (.Text (str! "bye")), .toSection 1,
   .sectionAndFocus (str! "Two") (.Under '-'), .findId 3, .push .EmptyLine]

example : (match DocOp.runAll (DocTree.new [] []) sampleHistory with
    | .ok d => some (d.nodeCount, place d.tree, match d.tree.walkToRoot with | .ok z => idsOf z.node | _ => [])
    | .error _ => none) = some (9, [0, 0, 0], [0, 1, 2, 3, 4, 6, 8, 7]) := by decide +kernel

end Rustla
