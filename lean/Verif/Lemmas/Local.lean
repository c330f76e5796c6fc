import Verif.Lemmas.Grow
/-! # Invariants that relate each node to its children -/
namespace Rustla
open Spec Relation

/-- A node and what can be seen of its children satisfy `L`. -/
def LocalOk {V : Type} (v : NodeType → V) (L : NodeType → List V → Prop) (n : TreeNode) : Prop :=
  L n.data ((n.children.getD []).map fun c => v c.data)

/-- `L` survives the steps of document building. -/
structure Stable {V : Type} (v : NodeType → V) (L : NodeType → List V → Prop) : Prop where
  fresh : ∀ a a' b, Adds a a' b → L b []
  add : ∀ a a' b vs, Adds a a' b → L a vs → L a' (vs ++ [v b])
  viewAdd : ∀ a a' b, Adds a a' b → v a' = v a
  change : ∀ a a' vs, Changes a a' → L a vs → L a' vs
  viewChange : ∀ a a', Changes a a' → v a' = v a

theorem local_replace {V : Type} {v : NodeType → V} {L : NodeType → List V → Prop} {t m n : TreeNode} {p : List Nat}
    (h : AllNodes (LocalOk v L) t) (hs : subtree? t p = some m) (hn : AllNodes (LocalOk v L) n) (hv : v n.data = v m.data) :
    AllNodes (LocalOk v L) (replaceAt t p n) := by
  have key : ∀ (p : List Nat) (t : TreeNode), AllNodes (LocalOk v L) t → subtree? t p = some m →
      AllNodes (LocalOk v L) (replaceAt t p n) ∧ v (replaceAt t p n).data = v t.data := by
    intro p
    induction p with
    | nil =>
      intro t h hs
      simp [subtree?] at hs; subst hs
      exact ⟨hn, hv⟩
    | cons i is ih =>
      intro t h hs
      simp only [subtree?] at hs
      cases hc : t.children with
      | none => simp [hc] at hs
      | some cs =>
        cases hi : cs[i]? with
        | none => simp [hc, hi] at hs
        | some c =>
          simp only [hc, hi, Option.bind_some] at hs
          have ht := (AllNodes_iff _ t).1 h
          obtain ⟨k1, k2⟩ := ih c (ht.2 cs hc c (List.mem_of_getElem? hi)) hs
          simp only [replaceAt, hc, hi]
          refine ⟨?_, by simp⟩
          rw [AllNodes_iff]
          refine ⟨?_, ?_⟩
          · have h1 := ht.1
            unfold LocalOk at h1 ⊢
            rw [hc] at h1
            simp only [TreeNode.data_setChildren, TreeNode.children_setChildren, Option.getD_some, List.map_set] at h1 ⊢
            have : (cs.map fun c => v c.data).set i (v (replaceAt c is n).data) = cs.map fun c => v c.data := by
              rw [k2]
              apply List.ext_getElem?
              intro j
              rw [List.getElem?_set]
              split
              · rename_i hij
                subst hij
                obtain ⟨hlt, he⟩ := List.getElem?_eq_some_iff.1 hi
                simp [hlt, he]
              · rfl
            rw [this]; exact h1
          · intro cs' hcs' c' hc'
            simp only [TreeNode.children_setChildren, Option.some.injEq] at hcs'
            subst hcs'
            rcases List.mem_or_eq_of_mem_set hc' with hm | rfl
            · exact ht.2 cs hc c' hm
            · exact k1
  exact (key p t h hs).1

theorem local_grow {V : Type} {v : NodeType → V} {L : NodeType → List V → Prop} (hS : Stable v L) {t t' : TreeNode}
    (h : AllNodes (LocalOk v L) t) (hg : Grow t t') : AllNodes (LocalOk v L) t' := by
  cases hg with
  | same => exact h
  | added p m new data cs hs hc hn ha hw =>
    have hm := (AllNodes_iff _ _).1 (AllNodes_subtree h hs)
    refine local_replace h hs ?_ (by simpa using hS.viewAdd _ _ _ hw)
    rw [AllNodes_iff]
    refine ⟨?_, ?_⟩
    · have h1 := hm.1
      unfold LocalOk at h1 ⊢
      rw [hc] at h1
      simp only [Option.getD_some] at h1
      simpa using hS.add _ _ _ _ hw h1
    · intro cs' hcs' c hcm
      simp only [TreeNode.children_setChildren, Option.some.injEq] at hcs'
      subst hcs'
      simp only [List.mem_append, List.mem_singleton] at hcm
      rcases hcm with hcm | rfl
      · exact hm.2 cs hc c hcm
      · rw [AllNodes_iff]
        refine ⟨?_, ?_⟩
        · unfold LocalOk
          have : (c.children.getD []).map (fun c => v c.data) = [] := by rw [hn]; split <;> rfl
          rw [this]
          exact hS.fresh _ _ _ hw
        · intro cs' hcs'
          rw [hn] at hcs'
          split at hcs'
          · cases hcs'; simp
          · simp at hcs'
  | changed p m data hs hw =>
    have hm := (AllNodes_iff _ _).1 (AllNodes_subtree h hs)
    refine local_replace h hs ?_ (by simpa using hS.viewChange _ _ hw)
    rw [AllNodes_iff]
    refine ⟨?_, ?_⟩
    · have h1 := hm.1
      unfold LocalOk at h1 ⊢
      simpa using hS.change _ _ _ hw h1
    · intro cs' hcs' c hcm
      simp only [TreeNode.children_setData] at hcs'
      exact hm.2 cs' hcs' c hcm

theorem local_grows {V : Type} {v : NodeType → V} {L : NodeType → List V → Prop} (hS : Stable v L) {t t' : TreeNode}
    (h : AllNodes (LocalOk v L) t) (hg : ReflTransGen Grow t t') : AllNodes (LocalOk v L) t' := by
  induction hg with
  | refl => exact h
  | tail _ hg ih => exact local_grow hS ih hg

theorem local_looseGrows {V : Type} {v : NodeType → V} {L : NodeType → List V → Prop} (hS : Stable v L)
    (hF : ∀ a b vs, b.kind = a.kind → (b.kind = .Section → b = a) → (L a vs → L b vs) ∧ v b = v a) {t t' : TreeNode}
    (h : AllNodes (LocalOk v L) t) (hg : ReflTransGen LooseGrow t t') : AllNodes (LocalOk v L) t' := by
  induction hg with
  | refl => exact h
  | tail _ hg ih =>
    cases hg with
    | grow hg => exact local_grow hS ih hg
    | fields p m data hs hk hw =>
      have hm := (AllNodes_iff _ _).1 (AllNodes_subtree ih hs)
      refine local_replace ih hs ?_ (by simpa using (hF m.data data [] hk hw).2)
      rw [AllNodes_iff]
      refine ⟨?_, ?_⟩
      · have h1 := hm.1
        unfold LocalOk at h1 ⊢
        simpa using (hF m.data data _ hk hw).1 h1
      · intro cs' hcs' c hcm
        simp only [TreeNode.children_setData] at hcs'
        exact hm.2 cs' hcs' c hcm

theorem local_new {V : Type} {v : NodeType → V} {L : NodeType → List V → Prop} (h : L .Document []) :
    AllNodes (LocalOk v L) (TreeNode.new .Document 0 none none) := by
  rw [AllNodes_iff]
  exact ⟨h, fun cs hcs c hc => by cases hcs; cases hc⟩

/-- In documents of successful parses. -/
theorem local_steps {V : Type} {v : NodeType → V} {L : NodeType → List V → Prop} (hS : Stable v L) (h0 : L .Document [])
    {stem folder : Str} {d : DocTree} (h : Steps (DocTree.new stem folder) d) :
    ∃ t, IsDoc d.tree t ∧ AllNodes (LocalOk v L) t := by
  obtain ⟨t, h1, h2⟩ := steps_grow (show IsDoc (DocTree.new stem folder).tree (TreeNode.new .Document 0 none none) from rfl) h
  exact ⟨t, h1, local_grows hS (local_new h0) h2⟩

/-- In documents of all parses. -/
theorem local_looseSteps {V : Type} {v : NodeType → V} {L : NodeType → List V → Prop} (hS : Stable v L)
    (hF : ∀ a b vs, b.kind = a.kind → (b.kind = .Section → b = a) → (L a vs → L b vs) ∧ v b = v a)
    (h0 : L .Document []) {stem folder : Str} {d : DocTree} (h : LooseSteps (DocTree.new stem folder) d) :
    ∃ t, IsDoc d.tree t ∧ AllNodes (LocalOk v L) t := by
  obtain ⟨t, h1, h2⟩ := looseSteps_grow (show IsDoc (DocTree.new stem folder).tree (TreeNode.new .Document 0 none none) from rfl) h
  exact ⟨t, h1, local_looseGrows hS hF (local_new h0) h2⟩

end Rustla
