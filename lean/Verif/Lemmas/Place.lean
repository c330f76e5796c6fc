import Verif.Spec.Tree
import Verif.Lemmas.Zipper
/-! # The zipper represents a plain tree and a place in it -/
namespace Rustla
open Spec

theorem subtree?_append (t : TreeNode) (a b : List Nat) :
    subtree? t (a ++ b) = (subtree? t a).bind (subtree? · b) := by
  induction a generalizing t with
  | nil => simp [subtree?]
  | cons i is ih =>
    simp only [List.cons_append, subtree?]
    cases t.children.bind (·[i]?) with
    | none => rfl
    | some c => simp [ih]

theorem replaceAt_append (t : TreeNode) (a b : List Nat) (m n : TreeNode) (h : subtree? t a = some m) :
    replaceAt t (a ++ b) n = replaceAt t a (replaceAt m b n) := by
  induction a generalizing t with
  | nil => simp [subtree?] at h; subst h; simp [replaceAt]
  | cons i is ih =>
    simp only [subtree?] at h
    simp only [List.cons_append, replaceAt]
    cases hc : t.children with
    | none => rfl
    | some cs =>
      simp only [hc, Option.bind_some] at h
      cases hi : cs[i]? with
      | none => simp [hi]
      | some c =>
        simp only [hi, Option.bind_some] at h
        simp only [hi, ih c h]

theorem pushSwap_set {α : Type} (l : List α) (i : Nat) (x y : α) (l' : List α) (h : pushSwap l i x = .ok l') :
    pushSwap l i y = .ok (l'.set i y) := by
  unfold pushSwap at h ⊢
  split
  · rename_i hi
    rw [dif_pos hi] at h
    simp only [Except.ok.injEq] at h
    subst h
    congr 1
    rw [List.set_append_left _ _ (by simpa using hi)]
    simp
  · rename_i hi
    rw [dif_neg hi] at h
    split
    · rename_i he
      rw [if_pos he] at h
      simp only [Except.ok.injEq] at h
      subst h he
      simp
    · rename_i he
      rw [if_neg he] at h
      simp at h

theorem pushSwap_get {α : Type} (l : List α) (i : Nat) (x : α) (l' : List α) (h : pushSwap l i x = .ok l') :
    l'[i]? = some x := by
  by_cases hi : i ≤ l.length
  · obtain ⟨l2, e, _, hg, _⟩ := pushSwap_ok l i x hi
    rw [h] at e; cases e; exact hg
  · unfold pushSwap at h
    rw [dif_neg (by omega), if_neg (by omega)] at h
    simp at h

namespace Zipper

theorem walkToRootAux_place (path : List (TreeNode × Nat)) (n t : TreeNode)
    (h : walkToRootAux n path = .ok t) :
    subtree? t (path.map (·.2)).reverse = some n ∧
    ∀ n', walkToRootAux n' path = .ok (replaceAt t (path.map (·.2)).reverse n') := by
  induction path generalizing n t with
  | nil =>
    simp only [walkToRootAux, Except.ok.injEq] at h
    subst h
    exact ⟨rfl, fun n' => rfl⟩
  | cons f rest ih =>
    obtain ⟨p, i⟩ := f
    simp only [walkToRootAux] at h
    cases hc : p.children with
    | none => simp [hc] at h
    | some cs =>
      simp only [hc] at h
      cases hs : pushSwap cs i n with
      | error e => simp [hs, bind, Except.bind] at h
      | ok cs' =>
        simp only [hs, bind, Except.bind] at h
        obtain ⟨h1, h2⟩ := ih _ _ h
        simp only [List.map_cons, List.reverse_cons]
        have hg := pushSwap_get _ _ _ _ hs
        refine ⟨?_, ?_⟩
        · rw [subtree?_append, h1]
          simp [subtree?, hg]
        · intro n'
          simp only [walkToRootAux, hc, pushSwap_set _ _ _ n' _ hs, bind, Except.bind]
          rw [h2, replaceAt_append _ _ _ _ _ h1]
          simp [replaceAt, hg]

/-- The focused node is the node found at the focused place of the document. -/
theorem subtree_place {z : Zipper} {t : TreeNode} (h : IsDoc z t) : subtree? t (place z) = some z.node := by
  unfold IsDoc walkToRoot at h
  cases hw : walkToRootAux z.node z.path with
  | error e => simp [hw, bind, Except.bind] at h
  | ok t' =>
    simp only [hw, bind, Except.bind, pure, Except.pure, Except.ok.injEq, Zipper.mk.injEq, and_true] at h
    subst h
    exact (walkToRootAux_place _ _ _ hw).1

/-- Replacing the focused node replaces the node at the focused place of the document. -/
theorem isDoc_replace {z : Zipper} {t : TreeNode} (h : IsDoc z t) (n : TreeNode) :
    IsDoc { z with node := n } (replaceAt t (place z) n) := by
  unfold IsDoc walkToRoot at h ⊢
  cases hw : walkToRootAux z.node z.path with
  | error e => simp [hw, bind, Except.bind] at h
  | ok t' =>
    simp only [hw, bind, Except.bind, pure, Except.pure, Except.ok.injEq, Zipper.mk.injEq, and_true] at h
    subst h
    have := (walkToRootAux_place _ _ _ hw).2 n
    simp only [this, bind, Except.bind, pure, Except.pure]
    rfl

theorem WFPath.walk_ok (path : List (TreeNode × Nat)) (n : TreeNode) (h : WFPath path) :
    ∃ t, walkToRootAux n path = .ok t := by
  induction path generalizing n with
  | nil => exact ⟨n, rfl⟩
  | cons f rest ih =>
    obtain ⟨p, i⟩ := f
    obtain ⟨⟨cs, hcs, hi⟩, hr⟩ := h
    obtain ⟨cs', e, _⟩ := pushSwap_ok cs i n hi
    simp only [walkToRootAux, hcs, e, bind, Except.bind]
    exact ih _ hr

theorem WF.isDoc {z : Zipper} (h : z.WF) : ∃ t, IsDoc z t := by
  obtain ⟨t, ht⟩ := WFPath.walk_ok z.path z.node h
  exact ⟨t, by simp [IsDoc, walkToRoot, ht, bind, Except.bind, pure, Except.pure]⟩

theorem isDoc_wf {z : Zipper} {t : TreeNode} (h : IsDoc z t) : z.WF := by
  have aux : ∀ (path : List (TreeNode × Nat)) (n t : TreeNode), walkToRootAux n path = .ok t → WFPath path := by
    intro path
    induction path with
    | nil => intros; trivial
    | cons f rest ih =>
      obtain ⟨p, i⟩ := f
      intro n t h
      simp only [walkToRootAux] at h
      cases hc : p.children with
      | none => simp [hc] at h
      | some cs =>
        simp only [hc] at h
        cases hs : pushSwap cs i n with
        | error e => simp [hs, bind, Except.bind] at h
        | ok cs' =>
          simp only [hs, bind, Except.bind] at h
          refine ⟨⟨cs, hc, ?_⟩, ih _ _ h⟩
          have := pushSwap_get _ _ _ _ hs
          unfold pushSwap at hs
          split at hs
          · omega
          · split at hs
            · omega
            · simp at hs
  unfold IsDoc walkToRoot at h
  cases hw : walkToRootAux z.node z.path with
  | error e => simp [hw, bind, Except.bind] at h
  | ok t' => exact aux _ _ _ hw

theorem isDoc_unique {z : Zipper} {t t' : TreeNode} (h : IsDoc z t) (h' : IsDoc z t') : t = t' := by
  unfold IsDoc at h h'
  rw [h] at h'
  simpa using h'

theorem place_child {z z' : Zipper} {i : Nat} (h : z.focusOnChild i = some z') : place z' = place z ++ [i] := by
  obtain ⟨cs, hi, _, _, hp⟩ := focusOnChild_some h
  simp [place, hp]

theorem place_parent {z z' : Zipper} (h : z.focusOnParent = .ok (some z')) : ∃ i, place z = place z' ++ [i] := by
  unfold focusOnParent at h
  split at h
  · simp at h
  · rename_i p i rest hpath
    split at h
    · simp at h
    · rename_i cs hcs
      cases hs : pushSwap cs i z.node with
      | error e => simp [hs, bind, Except.bind] at h
      | ok cs' =>
        simp only [hs, bind, Except.bind, Except.ok.injEq, Option.some.injEq] at h
        subst h
        exact ⟨i, by simp [place, hpath]⟩

theorem isDoc_child {z z' : Zipper} {i : Nat} {t : TreeNode} (h : z.focusOnChild i = some z') (hd : IsDoc z t) :
    IsDoc z' t := by
  unfold IsDoc at *
  rw [walkToRoot_focusOnChild h, hd]

theorem isDoc_parent {z z' : Zipper} {t : TreeNode} (h : z.focusOnParent = .ok (some z')) (hd : IsDoc z t) :
    IsDoc z' t := by
  unfold IsDoc at *
  rw [← walkToRoot_focusOnParent h, hd]

theorem isDoc_parentOrSelf {z z' : Zipper} {t : TreeNode} (h : z.parentOrSelf = .ok z') (hd : IsDoc z t) :
    IsDoc z' t := by
  unfold parentOrSelf at h
  cases hp : z.focusOnParent with
  | error e => simp [hp, bind, Except.bind] at h
  | ok o =>
    cases o with
    | none => simp [hp, bind, Except.bind, pure, Except.pure] at h; subst h; exact hd
    | some p => simp [hp, bind, Except.bind, pure, Except.pure] at h; subst h; exact isDoc_parent hp hd

theorem isDoc_parent_ok {z : Zipper} {t : TreeNode} (hd : IsDoc z t) : ∃ o, z.focusOnParent = .ok o := by
  cases hp : z.path with
  | nil => exact ⟨none, by simp [focusOnParent, hp]⟩
  | cons f rest =>
    obtain ⟨p, i⟩ := f
    obtain ⟨cs, cs', _, _, _, h⟩ := WF.focusOnParent_ok (isDoc_wf hd) hp
    exact ⟨_, h⟩

theorem isDoc_parentOrSelf_ok {z : Zipper} {t : TreeNode} (hd : IsDoc z t) : ∃ z', z.parentOrSelf = .ok z' := by
  obtain ⟨o, h⟩ := isDoc_parent_ok hd
  cases o with
  | none => exact ⟨z, by simp [parentOrSelf, h, bind, Except.bind, pure, Except.pure]⟩
  | some p => exact ⟨p, by simp [parentOrSelf, h, bind, Except.bind, pure, Except.pure]⟩

end Zipper
end Rustla
