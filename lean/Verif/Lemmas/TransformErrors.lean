import Verif.Props.Transforms
/-! # The only reason for which the transforms of a document crash -/
namespace Rustla
open Spec

/-- Every bullet list has a list of children. -/
def Slot (n : TreeNode) : Prop := n.kind = .BulletList → n.children ≠ none

theorem slot_kind {n : TreeNode} (h : n.kind ≠ .BulletList) : Slot n := fun e => absurd e h

theorem slot_setData {t : TreeNode} (d : NodeType) (hd : d.kind ≠ .BulletList) (h : AllNodes Slot t) :
    AllNodes Slot (t.setData d) := by
  refine allNodes_of (slot_kind (by cases t; exact hd)) ?_
  intro cs hc
  rw [TreeNode.children_setData] at hc
  exact allNodes_child h hc

theorem slot_setChildren {t : TreeNode} {cs : List TreeNode} (h : ∀ c ∈ cs, AllNodes Slot c) :
    AllNodes Slot (t.setChildren (some cs)) := by
  refine allNodes_of (fun _ => by simp) ?_
  intro cs' hc
  rw [TreeNode.children_setChildren] at hc
  cases hc; exact h

theorem slot_marked (cs : List TreeNode) (h : ∀ c ∈ cs, AllNodes Slot c) : ∀ c ∈ markEntries cs, AllNodes Slot c := by
  induction cs with
  | nil => simp [markEntries]
  | cons c cs ih =>
    cases cs with
    | nil =>
      intro x hx
      simp only [markEntries, List.mem_singleton] at hx
      subst hx
      exact slot_setData _ (by simp [NodeType.kind]) (h c (by simp))
    | cons d ds =>
      intro x hx
      simp only [markEntries, List.mem_cons] at hx
      rcases hx with rfl | hx
      · exact slot_setData _ (by simp [NodeType.kind]) (h c (by simp))
      · exact ih (fun y hy => h y (by simp [hy])) x (by simpa using hx)

theorem rowOf_slot {t t' : TreeNode} (h : rowOf t = .ok t') (ht : AllNodes Slot t) : AllNodes Slot t' := by
  rcases rowOf_cases h with ⟨rfl, _⟩ | ⟨_, rfl⟩ | ⟨nested, rest, c, cs, _, hc, _, hn, rfl⟩
  · exact ht
  · exact slot_setData _ (by simp [NodeType.kind]) ht
  · exact slot_setChildren (slot_marked _ (allNodes_child (allNodes_child ht hc nested (by simp)) hn))

theorem transformHere_slot {t t' : TreeNode} (h : transformHere t = .ok t') (ht : AllNodes Slot t) : AllNodes Slot t' := by
  rcases transformHere_cases h with ⟨rfl, _⟩ | ⟨cs, hk, hc, rfl⟩ | ⟨_, _, rfl⟩ | ⟨list, rest, body, hk, hc, hb, rfl⟩
  · exact ht
  · refine slot_setChildren fun c hcm => ?_
    have hch := allNodes_child ht hc
    match cs, hch, hcm with
    | [], _, hcm => cases hcm
    | [a], hch, hcm => exact hch c hcm
    | a :: b :: rest, hch, hcm =>
      simp only [captionSecond, List.mem_cons] at hcm
      rcases hcm with rfl | rfl | hcm
      · exact hch _ (by simp)
      · unfold captioned
        split
        · exact slot_setData _ (by simp [NodeType.kind]) (hch _ (by simp))
        · exact hch _ (by simp)
      · exact hch _ (by simp [hcm])
  · exact ht
  · refine slot_setChildren fun c hcm => ?_
    have hch := allNodes_child ht hc
    rcases List.mem_cons.1 hcm with rfl | hcm
    · rcases tableBody_cases hb with ⟨rfl, _⟩ | ⟨_, _, rfl⟩ | ⟨items, rows, _, hi, hr, rfl⟩
      · exact hch _ (by simp)
      · exact slot_setData _ (by simp [NodeType.kind]) (hch _ (by simp))
      · refine slot_setChildren fun c hcm => ?_
        obtain ⟨x, hx, hxr⟩ := forall₂_right (rowsOf_forall₂ hr) c hcm
        exact rowOf_slot hxr (allNodes_child (hch list (by simp)) hi x hx)
    · exact hch c (by simp [hcm])

/-- The crash of the transforms. -/
def emptyRow : Panic := .underflow "restructuredtext_transforms.rs n_of_entries - 1"

theorem rowOf_error {t : TreeNode} {p : Panic} (ht : AllNodes Slot t) (h : rowOf t = .error p) : p = emptyRow := by
  unfold rowOf at h
  by_cases hk : t.kind = .BulletListItem
  · rw [if_pos hk] at h
    split at h
    · rename_i nested rest hc
      by_cases hn : nested.kind = .BulletList
      · rw [if_pos hn] at h
        have hs : Slot nested := allNodes_self (allNodes_child ht hc nested (by simp))
        cases hcells : rowCells nested with
        | error e =>
          rw [hcells] at h; cases h
          unfold rowCells at hcells
          cases hch : nested.children with
          | none => exact absurd hch (hs hn)
          | some cs =>
            rw [hch] at hcells
            cases cs with
            | nil => cases hcells; rfl
            | cons c cs => cases hcells
        | ok cells =>
          rw [hcells] at h
          obtain ⟨c, cs, _, rfl⟩ := rowCells_ok hcells
          have := allAllowed_entries _ (markEntries_kind (c :: cs))
          simp only [bind, Except.bind, TreeNode.appendChildren] at h
          have hkk : ((t.setData .TRow).setChildren (some [])).kind = .TRow := by cases t; rfl
          rw [hkk, this] at h
          simp only [TreeNode.children_setChildren] at h
          cases h
      · rw [if_neg hn] at h; cases h
    · cases h
  · rw [if_neg hk] at h; cases h

theorem rowsOf_error {ts : List TreeNode} {p : Panic} (ht : ∀ t ∈ ts, AllNodes Slot t) (h : rowsOf ts = .error p) :
    p = emptyRow := by
  induction ts with
  | nil => cases h
  | cons t ts ih =>
    unfold rowsOf at h
    cases hr : rowOf t with
    | error e => rw [hr] at h; cases h; exact rowOf_error (ht t (by simp)) hr
    | ok r =>
      rw [hr] at h
      cases hs : rowsOf ts with
      | error e => rw [hs] at h; cases h; exact ih (fun x hx => ht x (by simp [hx])) hs
      | ok rs => rw [hs] at h; cases h

theorem tableBody_error {t : TreeNode} {p : Panic} (ht : AllNodes Slot t) (h : tableBody t = .error p) : p = emptyRow := by
  unfold tableBody at h
  by_cases hk : t.kind = .BulletList
  · rw [if_pos hk] at h
    split at h
    · rename_i items hc
      cases hr : rowsOf items with
      | error e => rw [hr] at h; cases h; exact rowsOf_error (allNodes_child ht hc) hr
      | ok rows => rw [hr] at h; cases h
    · cases h
  · rw [if_neg hk] at h; cases h

theorem transformHere_error {t : TreeNode} {p : Panic} (ht : AllNodes Slot t) (h : transformHere t = .error p) :
    p = emptyRow := by
  unfold transformHere at h
  split at h
  · cases h
  · rename_i cs hc
    by_cases hf : t.kind = .Figure
    · rw [if_pos hf] at h; cases h
    · rw [if_neg hf] at h
      by_cases hl : t.kind = .ListTable
      · rw [if_pos hl] at h
        cases cs with
        | nil => cases h
        | cons list rest =>
          simp only [tableChildren] at h
          cases hb : tableBody list with
          | error e => rw [hb] at h; cases h; exact tableBody_error (allNodes_child ht hc list (by simp)) hb
          | ok body => rw [hb] at h; cases h
      · rw [if_neg hl] at h; cases h

theorem transformAll_error {f : TreeNode → Run TreeNode} {ts : List TreeNode} {p : Panic} (h : transformAll f ts = .error p) :
    ∃ t ∈ ts, f t = .error p := by
  induction ts with
  | nil => cases h
  | cons t ts ih =>
    unfold transformAll at h
    cases hr : f t with
    | error e => rw [hr] at h; cases h; exact ⟨t, by simp, hr⟩
    | ok r =>
      rw [hr] at h
      cases hs : transformAll f ts with
      | error e => rw [hs] at h; cases h; obtain ⟨x, hx, he⟩ := ih hs; exact ⟨x, by simp [hx], he⟩
      | ok rs => rw [hs] at h; cases h

theorem transformUpTo_error {n : Nat} {t : TreeNode} {p : Panic} (hn : t.height ≤ n) (ht : AllNodes Slot t)
    (h : transformUpTo n t = .error p) : p = emptyRow := by
  induction n generalizing t with
  | zero => cases t with | mk i r c d cs => cases cs <;> simp [TreeNode.height] at hn
  | succ n ih =>
    unfold transformUpTo at h
    cases h1 : transformHere t with
    | error e => rw [h1] at h; cases h; exact transformHere_error ht h1
    | ok t1 =>
      rw [h1] at h
      simp only [bind, Except.bind] at h
      cases hc : t1.children with
      | none => rw [hc] at h; cases h
      | some cs =>
        rw [hc] at h
        simp only at h
        cases hs : transformAll (transformUpTo n) cs with
        | ok rs => rw [hs] at h; cases h
        | error e =>
          rw [hs] at h; cases h
          obtain ⟨x, hx, he⟩ := transformAll_error hs
          have hh := transformHere_height h1
          rw [height_some hc] at hh
          have := (heightList_le (k := n)).1 (by omega) x hx
          exact ih this (allNodes_child (transformHere_slot h1 ht) hc x hx) he

end Rustla
