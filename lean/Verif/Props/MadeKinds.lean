import Verif.Props.Counts
/-!
# The kinds of the nodes of parsed documents
-/
namespace Rustla
open Spec

/-- The kinds of nodes that the parser makes below the root. -/
def madeKind (k : Kind) : Bool :=
  plainKind k || match k with
  | .Section | .AplusPickOne | .AplusPickAny | .AplusFreeText | .EnumeratedListItem | .ExternalHyperlinkTarget
  | .IndirectHyperlinkTarget => true
  | _ => false

theorem adds_made {a a' b : NodeType} (h : Adds a a' b) : madeKind b.kind = true := by
  cases h
  case plain h =>
    rcases h with h | h | h
    · unfold madeKind; rw [plainData_kind h]; rfl
    · rw [h]; rfl
    · rw [h]; rfl
  case «section» => rfl
  case question p hq => rcases questionPoints_kind hq with h | h | h <;> rw [h] <;> rfl
  case enumItem h => rw [h]; rfl

/-- All children are of the kinds that the parser makes. -/
def MadeLocal (_ : NodeType) (ks : List Kind) : Prop := ∀ k ∈ ks, madeKind k = true

theorem made_stable : Stable NodeType.kind MadeLocal where
  fresh := by intro a a' b _ k hk; cases hk
  add := by
    intro a a' b vs hw h k hk
    rcases List.mem_append.1 hk with hk | hk
    · exact h k hk
    · simp only [List.mem_singleton] at hk; subst hk; exact adds_made hw
  viewAdd := by
    intro a a' b hw
    obtain ⟨f, hf, he⟩ := adds_tame hw
    rw [he]; exact (hf a).1
  change := fun a a' vs _ h => h
  viewChange := by
    intro a a' hw
    obtain ⟨f, hf, he⟩ := changes_tame hw
    rw [he]; exact (hf a).1

theorem replaceAt_root_kind {t m n : TreeNode} {p : List Nat} (hs : subtree? t p = some m) (hk : n.kind = m.kind) :
    (replaceAt t p n).kind = t.kind := by
  cases p with
  | nil => simp [subtree?] at hs; subst hs; simpa [replaceAt] using hk
  | cons i is =>
    simp only [subtree?] at hs
    cases hc : t.children with
    | none => simp [hc] at hs
    | some cs =>
      cases hi : cs[i]? with
      | none => simp [hc, hi] at hs
      | some c =>
        simp only [replaceAt, hc, hi]
        simp [TreeNode.kind]

/-- The root of every document is a document node. -/
theorem root_is_document (d : DocTree) (hr : Reachable d) : ∃ t, IsDoc d.tree t ∧ t.kind = .Document := by
  refine reachable_invariant (fun t _ => t.kind = .Document) rfl ?_ hr
  intro t n t' n' h hs
  cases hs with
  | same => exact h
  | added p m new cs hs _ _ _ _ => rw [replaceAt_root_kind hs (by simp [TreeNode.kind])]; exact h
  | removed p m cs hs _ => rw [replaceAt_root_kind hs (by simp [TreeNode.kind])]; exact h
  | changed p m data hs hk => rw [replaceAt_root_kind hs (by simpa [TreeNode.kind] using hk)]; exact h

theorem preorderList_mem {cs : List TreeNode} {n : TreeNode} (h : n ∈ preorderList cs) : ∃ c ∈ cs, n ∈ preorder c := by
  induction cs with
  | nil => simp [preorderList] at h
  | cons c cs ih =>
    rcases List.mem_append.1 (by simpa [preorderList] using h) with h | h
    · exact ⟨c, by simp, h⟩
    · obtain ⟨c', h1, h2⟩ := ih h; exact ⟨c', by simp [h1], h2⟩

theorem self_mem_preorder (t : TreeNode) : t ∈ preorder t := by
  cases hc : t.children with
  | none => rw [preorder_leaf _ hc]; exact List.mem_singleton.2 rfl
  | some cs => rw [preorder_node _ _ hc]; exact List.mem_cons_self ..

theorem mem_preorderList {cs : List TreeNode} {c n : TreeNode} (hc : c ∈ cs) (hn : n ∈ preorder c) :
    n ∈ preorderList cs := by
  induction cs with
  | nil => cases hc
  | cons d ds ih =>
    rcases List.mem_cons.1 hc with rfl | h
    · simp [preorderList, hn]
    · simp [preorderList, ih h]

/-- A tree is a child of a node of the tree, or the root. -/
theorem preorder_cases {t n : TreeNode} (h : n ∈ preorder t) :
    n = t ∨ ∃ p ∈ preorder t, n ∈ p.children.getD [] := by
  have key : ∀ k, ∀ t : TreeNode, sizeOf t ≤ k → ∀ n ∈ preorder t, n = t ∨ ∃ p ∈ preorder t, n ∈ p.children.getD [] := by
    intro k
    induction k with
    | zero => intro t ht; cases t; simp at ht
    | succ k ih =>
      intro t ht n hn
      cases hc : t.children with
      | none => rw [preorder_leaf _ hc] at hn; exact .inl (List.mem_singleton.1 hn)
      | some cs =>
        rw [preorder_node _ _ hc] at hn
        rcases List.mem_cons.1 hn with rfl | hn
        · exact .inl rfl
        · obtain ⟨c, hcm, hn⟩ := preorderList_mem hn
          have hsz : sizeOf c ≤ k := by
            have h1 := List.sizeOf_lt_of_mem hcm
            cases t with | mk i r c' d cs' => cases hc; simp at ht; omega
          have hmem : ∀ m, m ∈ preorder c → m ∈ preorder t := by
            intro m hm
            rw [preorder_node _ _ hc]
            exact List.mem_cons_of_mem _ (mem_preorderList hcm hm)
          rcases ih c hsz n hn with rfl | ⟨p, hp, hnp⟩
          · exact .inr ⟨t, by rw [preorder_node _ _ hc]; exact List.mem_cons_self .., by simp [hc, hcm]⟩
          · exact .inr ⟨p, hmem p hp, hnp⟩
  exact key (sizeOf t) t (Nat.le_refl _) n h

/-- **C42 (kinds of nodes).** For every input: the root of the document of the parse is a document node and every other node
is of one of the kinds that the parser makes. -/
theorem C42_made_kinds (fuel : Nat) (stem folder : Str) (lines : List Str) (r : ParsingResult)
    (h : parseDocument fuel stem folder lines = .ok r) :
    ∃ t, IsDoc r.doc.tree t ∧ t.kind = .Document ∧
      ∀ n ∈ preorderList (t.children.getD []), madeKind n.kind = true := by
  obtain ⟨t, h1, h2⟩ := local_looseSteps made_stable (fun a b vs hk _ => ⟨fun h => h, hk⟩) (by intro k hk; cases hk)
    (parseDocument_loose h)
  obtain ⟨t', h1', h3⟩ := root_is_document _ (parsed_reachable h)
  cases Zipper.isDoc_unique h1 h1'
  refine ⟨t, h1, h3, fun n hn => ?_⟩
  obtain ⟨c, hc, hn⟩ := preorderList_mem hn
  have hall : ∀ p ∈ preorder t, ∀ c ∈ p.children.getD [], madeKind c.kind = true := by
    intro p hp c hc
    exact h2 p hp c.data.kind (List.mem_map.2 ⟨c, hc, rfl⟩)
  have hct : ∀ m ∈ preorder c, m ∈ preorder t := by
    cases hcc : t.children with
    | none => rw [hcc] at hc; cases hc
    | some cs =>
      rw [hcc] at hc
      intro m hm
      rw [preorder_node _ _ hcc]
      exact List.mem_cons_of_mem _ (mem_preorderList hc hm)
  rcases preorder_cases hn with rfl | ⟨p, hp, hnp⟩
  · exact hall t (self_mem_preorder t) _ hc
  · exact hall p (hct p hp) n hnp

end Rustla
