import Verif.Model.Transforms
import Verif.Lemmas.Local
import Verif.Props.MadeKinds
/-! # The transforms and local properties of trees -/
namespace Rustla
open Spec

/-- Kinds of nodes that the transforms make. -/
def transformedKind (k : Kind) : Bool :=
  match k with
  | .Caption | .TBody | .TRow | .Entry => true
  | _ => false

/-- Kinds of nodes whose children the transforms change, or that they make. -/
def touchedKind (k : Kind) : Bool :=
  match k with
  | .Figure | .ListTable => true
  | k => transformedKind k

variable {V : Type} {v : NodeType → V} {L : NodeType → List V → Prop}

theorem allNodes_of {P : TreeNode → Prop} {t : TreeNode} (h1 : P t)
    (h2 : ∀ cs, t.children = some cs → ∀ c ∈ cs, AllNodes P c) : AllNodes P t := (AllNodes_iff P t).2 ⟨h1, h2⟩

theorem allNodes_self {P : TreeNode → Prop} {t : TreeNode} (h : AllNodes P t) : P t := ((AllNodes_iff P t).1 h).1

theorem allNodes_child {P : TreeNode → Prop} {t : TreeNode} (h : AllNodes P t) {cs : List TreeNode}
    (hc : t.children = some cs) : ∀ c ∈ cs, AllNodes P c := ((AllNodes_iff P t).1 h).2 cs hc

theorem allNodes_setData (hL : ∀ d vs, transformedKind d.kind = true → L d vs) {t : TreeNode} (d : NodeType)
    (hd : transformedKind d.kind = true) (h : AllNodes (LocalOk v L) t) : AllNodes (LocalOk v L) (t.setData d) := by
  refine allNodes_of (hL _ _ (by simpa using hd)) ?_
  intro cs hc c hcm
  simp only [TreeNode.children_setData] at hc
  exact allNodes_child h hc c hcm

theorem markEntries_local (hL : ∀ d vs, transformedKind d.kind = true → L d vs) (cs : List TreeNode)
    (h : ∀ c ∈ cs, AllNodes (LocalOk v L) c) : ∀ c ∈ markEntries cs, AllNodes (LocalOk v L) c := by
  induction cs with
  | nil => simp [markEntries]
  | cons c cs ih =>
    cases cs with
    | nil =>
      intro x hx
      simp only [markEntries, List.mem_singleton] at hx
      subst hx
      exact allNodes_setData hL _ rfl (h c (by simp))
    | cons d ds =>
      intro x hx
      simp only [markEntries, List.mem_cons] at hx
      rcases hx with rfl | hx
      · exact allNodes_setData hL _ rfl (h c (by simp))
      · exact ih (fun y hy => h y (List.mem_cons_of_mem _ hy)) x (by simpa using hx)

theorem appendChildren_ok {t t' : TreeNode} {cs : List TreeNode} (h : t.appendChildren cs = .ok t') :
    ∃ old, t.children = some old ∧ t' = t.setChildren (some (old ++ cs)) := by
  unfold TreeNode.appendChildren at h
  cases ha : TreeNode.allAllowed t.kind cs with
  | error e => rw [ha] at h; cases h
  | ok _ =>
    rw [ha] at h
    simp only [bind, Except.bind] at h
    split at h
    · rename_i old ho; cases h; exact ⟨old, ho, rfl⟩
    · cases h

theorem rowCells_ok {t : TreeNode} {cells : List TreeNode} (h : rowCells t = .ok cells) :
    ∃ c cs, t.children = some (c :: cs) ∧ cells = markEntries (c :: cs) := by
  unfold rowCells at h
  split at h
  · cases h
  · cases h
  · rename_i c cs hc; cases h; exact ⟨c, cs, hc, rfl⟩

/-- The forms that the treatment of an item can take. -/
theorem rowOf_cases {t t' : TreeNode} (h : rowOf t = .ok t') :
    t' = t ∧ t.kind ≠ .BulletListItem ∨
    t.kind = .BulletListItem ∧ t' = t.setData .TRow ∨
    ∃ nested rest c cs, t.kind = .BulletListItem ∧ t.children = some (nested :: rest) ∧ nested.kind = .BulletList ∧
      nested.children = some (c :: cs) ∧ t' = (t.setData .TRow).setChildren (some (markEntries (c :: cs))) := by
  unfold rowOf at h
  by_cases hk : t.kind = .BulletListItem
  · rw [if_pos hk] at h
    split at h
    · rename_i nested rest hc
      by_cases hn : nested.kind = .BulletList
      · rw [if_pos hn] at h
        cases hcells : rowCells nested with
        | error e => rw [hcells] at h; cases h
        | ok cells =>
          rw [hcells] at h
          simp only [bind, Except.bind] at h
          obtain ⟨c, cs, h1, h2⟩ := rowCells_ok hcells
          obtain ⟨old, h3, h4⟩ := appendChildren_ok h
          simp only [TreeNode.children_setChildren, Option.some.injEq] at h3
          subst h3
          refine .inr (.inr ⟨nested, rest, c, cs, hk, hc, hn, h1, ?_⟩)
          rw [h4, h2]; simp
      · rw [if_neg hn] at h; cases h; exact .inr (.inl ⟨hk, rfl⟩)
    · cases h; exact .inr (.inl ⟨hk, rfl⟩)
  · rw [if_neg hk] at h; cases h; exact .inl ⟨rfl, hk⟩

theorem rowOf_local (hL : ∀ d vs, transformedKind d.kind = true → L d vs) {t t' : TreeNode} (h : rowOf t = .ok t')
    (ht : AllNodes (LocalOk v L) t) : AllNodes (LocalOk v L) t' := by
  rcases rowOf_cases h with ⟨rfl, _⟩ | ⟨_, rfl⟩ | ⟨nested, rest, c, cs, _, hc, _, hn, rfl⟩
  · exact ht
  · exact allNodes_setData hL _ rfl ht
  · refine allNodes_of (hL _ _ (by simp [NodeType.kind, transformedKind])) ?_
    intro cs' hcs'
    simp only [TreeNode.children_setChildren, Option.some.injEq] at hcs'
    subst hcs'
    exact markEntries_local hL _ (allNodes_child (allNodes_child ht hc nested (by simp)) hn)

theorem rowsOf_forall₂ {ts ts' : List TreeNode} (h : rowsOf ts = .ok ts') :
    List.Forall₂ (fun t t' => rowOf t = .ok t') ts ts' := by
  induction ts generalizing ts' with
  | nil => cases h; exact .nil
  | cons t ts ih =>
    unfold rowsOf at h
    cases hr : rowOf t with
    | error e => rw [hr] at h; cases h
    | ok r =>
      rw [hr] at h
      cases hs : rowsOf ts with
      | error e => rw [hs] at h; cases h
      | ok rs => rw [hs] at h; cases h; exact .cons hr (ih hs)

theorem transformAll_forall₂ {f : TreeNode → Run TreeNode} {ts ts' : List TreeNode} (h : transformAll f ts = .ok ts') :
    List.Forall₂ (fun t t' => f t = .ok t') ts ts' := by
  induction ts generalizing ts' with
  | nil => cases h; exact .nil
  | cons t ts ih =>
    unfold transformAll at h
    cases hr : f t with
    | error e => rw [hr] at h; cases h
    | ok r =>
      rw [hr] at h
      cases hs : transformAll f ts with
      | error e => rw [hs] at h; cases h
      | ok rs => rw [hs] at h; cases h; exact .cons hr (ih hs)

theorem forall₂_right {α β : Type} {R : α → β → Prop} {l : List α} {l' : List β} (h : List.Forall₂ R l l') :
    ∀ y ∈ l', ∃ x ∈ l, R x y := by
  induction h with
  | nil => intro y hy; cases hy
  | cons hab _ ih =>
    intro y hy
    rcases List.mem_cons.1 hy with rfl | hy
    · exact ⟨_, by simp, hab⟩
    · obtain ⟨x, hx, hr⟩ := ih y hy; exact ⟨x, by simp [hx], hr⟩

/-- The forms that the treatment of the list in a list table can take. -/
theorem tableBody_cases {t t' : TreeNode} (h : tableBody t = .ok t') :
    t' = t ∧ t.kind ≠ .BulletList ∨ t.kind = .BulletList ∧ t.children = none ∧ t' = t.setData .TBody ∨
    ∃ items rows, t.kind = .BulletList ∧ t.children = some items ∧ rowsOf items = .ok rows ∧
      t' = (t.setData .TBody).setChildren (some rows) := by
  unfold tableBody at h
  by_cases hk : t.kind = .BulletList
  · rw [if_pos hk] at h
    split at h
    · rename_i items hc
      cases hr : rowsOf items with
      | error e => rw [hr] at h; cases h
      | ok rows => rw [hr] at h; cases h; exact .inr (.inr ⟨items, rows, hk, hc, hr, rfl⟩)
    · rename_i hc; cases h; exact .inr (.inl ⟨hk, hc, rfl⟩)
  · rw [if_neg hk] at h; cases h; exact .inl ⟨rfl, hk⟩

/-- The forms that the treatment of a node can take. -/
theorem transformHere_cases {t t' : TreeNode} (h : transformHere t = .ok t') :
    t' = t ∧ (t.children = none ∨ t.kind ≠ .Figure ∧ t.kind ≠ .ListTable) ∨
    (∃ cs, t.kind = .Figure ∧ t.children = some cs ∧ t' = t.setChildren (some (captionSecond cs))) ∨
    (t.kind = .ListTable ∧ t.children = some [] ∧ t' = t) ∨
    ∃ list rest body, t.kind = .ListTable ∧ t.children = some (list :: rest) ∧ tableBody list = .ok body ∧
      t' = t.setChildren (some (body :: rest)) := by
  unfold transformHere at h
  split at h
  · rename_i hc; cases h; exact .inl ⟨rfl, .inl hc⟩
  · rename_i cs hc
    by_cases hf : t.kind = .Figure
    · rw [if_pos hf] at h; cases h; exact .inr (.inl ⟨cs, hf, hc, rfl⟩)
    · rw [if_neg hf] at h
      by_cases hl : t.kind = .ListTable
      · rw [if_pos hl] at h
        cases cs with
        | nil =>
          cases h
          refine .inr (.inr (.inl ⟨hl, hc, ?_⟩))
          cases t; cases hc; rfl
        | cons list rest =>
          simp only [tableChildren] at h
          cases hb : tableBody list with
          | error e => rw [hb] at h; cases h
          | ok body => rw [hb] at h; cases h; exact .inr (.inr (.inr ⟨list, rest, body, hl, hc, hb, rfl⟩))
      · rw [if_neg hl] at h; cases h; exact .inl ⟨rfl, .inr ⟨hf, hl⟩⟩

theorem transformHere_data {t t' : TreeNode} (h : transformHere t = .ok t') :
    t'.data = t.data ∧ t'.id = t.id ∧ t'.refnames = t.refnames ∧ t'.classes = t.classes := by
  rcases transformHere_cases h with ⟨rfl, _⟩ | ⟨cs, _, _, rfl⟩ | ⟨_, _, rfl⟩ | ⟨list, rest, body, _, _, _, rfl⟩
  · exact ⟨rfl, rfl, rfl, rfl⟩
  · cases t; exact ⟨rfl, rfl, rfl, rfl⟩
  · exact ⟨rfl, rfl, rfl, rfl⟩
  · cases t; exact ⟨rfl, rfl, rfl, rfl⟩

theorem transformHere_local (hL : ∀ d vs, transformedKind d.kind = true → L d vs)
    (hF : ∀ d vs vs', d.kind = .Figure ∨ d.kind = .ListTable → L d vs → L d vs') {t t' : TreeNode}
    (h : transformHere t = .ok t') (ht : AllNodes (LocalOk v L) t) : AllNodes (LocalOk v L) t' := by
  rcases transformHere_cases h with ⟨rfl, _⟩ | ⟨cs, hk, hc, rfl⟩ | ⟨_, _, rfl⟩ | ⟨list, rest, body, hk, hc, hb, rfl⟩
  · exact ht
  · refine allNodes_of ?_ ?_
    · unfold LocalOk; rw [TreeNode.data_setChildren]; exact hF _ _ _ (.inl hk) (allNodes_self ht)
    · intro cs' hcs' c hcm
      simp only [TreeNode.children_setChildren, Option.some.injEq] at hcs'
      subst hcs'
      have hch := allNodes_child ht hc
      match cs, hch, hcm with
      | [], _, hcm => cases hcm
      | [a], hch, hcm => exact hch c hcm
      | a :: b :: rest, hch, hcm =>
        simp only [captionSecond, List.mem_cons] at hcm
        rcases hcm with rfl | rfl | hcm
        · exact hch _ (by simp)
        · unfold captioned
          split
          · exact allNodes_setData hL _ rfl (hch _ (by simp))
          · exact hch _ (by simp)
        · exact hch _ (by simp [hcm])
  · exact ht
  · refine allNodes_of ?_ ?_
    · unfold LocalOk; rw [TreeNode.data_setChildren]; exact hF _ _ _ (.inr hk) (allNodes_self ht)
    · intro cs' hcs' c hcm
      simp only [TreeNode.children_setChildren, Option.some.injEq] at hcs'
      subst hcs'
      have hch := allNodes_child ht hc
      rcases List.mem_cons.1 hcm with rfl | hcm
      · rcases tableBody_cases hb with ⟨rfl, _⟩ | ⟨_, _, rfl⟩ | ⟨items, rows, _, hi, hr, rfl⟩
        · exact hch _ (by simp)
        · exact allNodes_setData hL _ rfl (hch _ (by simp))
        · refine allNodes_of (hL _ _ (by simp [NodeType.kind, transformedKind])) ?_
          intro cs' hcs' c hcm
          simp only [TreeNode.children_setChildren, Option.some.injEq] at hcs'
          subst hcs'
          obtain ⟨x, hx, hxr⟩ := forall₂_right (rowsOf_forall₂ hr) c hcm
          exact rowOf_local hL hxr (allNodes_child (hch list (by simp)) hi x hx)
      · exact hch c (by simp [hcm])

/-- The forms of a successful transform. -/
theorem transformUpTo_cases {n : Nat} {t t' : TreeNode} (h : transformUpTo (n + 1) t = .ok t') :
    ∃ t1, transformHere t = .ok t1 ∧ (t1.children = none ∧ t' = t1 ∨
      ∃ cs cs', t1.children = some cs ∧ List.Forall₂ (fun a b => transformUpTo n a = .ok b) cs cs' ∧
        t' = t1.setChildren (some cs')) := by
  unfold transformUpTo at h
  cases h1 : transformHere t with
  | error e => rw [h1] at h; cases h
  | ok t1 =>
    rw [h1] at h
    simp only [bind, Except.bind] at h
    refine ⟨t1, rfl, ?_⟩
    split at h
    · rename_i hc; cases h; exact .inl ⟨hc, rfl⟩
    · rename_i cs hc
      cases hs : transformAll (transformUpTo n) cs with
      | error e => rw [hs] at h; cases h
      | ok cs' => rw [hs] at h; cases h; exact .inr ⟨cs, cs', hc, transformAll_forall₂ hs, rfl⟩

theorem transformUpTo_data {n : Nat} {t t' : TreeNode} (h : transformUpTo n t = .ok t') :
    t'.data = t.data ∧ t'.id = t.id ∧ t'.refnames = t.refnames ∧ t'.classes = t.classes := by
  cases n with
  | zero => cases h
  | succ n =>
    obtain ⟨t1, h1, h2⟩ := transformUpTo_cases h
    have := transformHere_data h1
    rcases h2 with ⟨_, rfl⟩ | ⟨cs, cs', _, _, rfl⟩
    · exact this
    · cases t1; exact this

/-- A local property that the nodes made by the transforms trivially have and that does not depend on the children of
figures and list tables survives them. -/
theorem transform_local' (hL : ∀ d vs, transformedKind d.kind = true → L d vs)
    (hF : ∀ d vs vs', d.kind = .Figure ∨ d.kind = .ListTable → L d vs → L d vs') {n : Nat} {t t' : TreeNode}
    (h : transformUpTo n t = .ok t') (ht : AllNodes (LocalOk v L) t) : AllNodes (LocalOk v L) t' := by
  induction n generalizing t t' with
  | zero => cases h
  | succ n ih =>
    obtain ⟨t1, h1, h2⟩ := transformUpTo_cases h
    have k1 := transformHere_local hL hF h1 ht
    rcases h2 with ⟨_, rfl⟩ | ⟨cs, cs', hc, hf, rfl⟩
    · exact k1
    · refine allNodes_of ?_ ?_
      · have := allNodes_self k1
        unfold LocalOk at this ⊢
        rw [hc] at this
        simp only [TreeNode.data_setChildren, TreeNode.children_setChildren, Option.getD_some] at this ⊢
        have e : (cs'.map fun c => v c.data) = cs.map fun c => v c.data := by
          clear hc this k1 h1 h
          induction hf with
          | nil => rfl
          | cons hab _ ihf => simp only [List.map_cons, ihf, (transformUpTo_data hab).1]
        rw [e]; exact this
      · intro cs2 hcs2 c hcm
        simp only [TreeNode.children_setChildren, Option.some.injEq] at hcs2
        subst hcs2
        obtain ⟨x, hx, hxr⟩ := forall₂_right hf c hcm
        exact ih hxr (allNodes_child k1 hc x hx)

/-- A local property that the kinds of nodes touched by the transforms trivially have survives them. -/
theorem transform_local (hL : ∀ d vs, touchedKind d.kind = true → L d vs) {n : Nat} {t t' : TreeNode}
    (h : transformUpTo n t = .ok t') (ht : AllNodes (LocalOk v L) t) : AllNodes (LocalOk v L) t' :=
  transform_local' (fun d vs hd => hL d vs (by
      unfold touchedKind; split
      · rfl
      · rfl
      · exact hd))
    (fun d _ vs' hk _ => hL d vs' (by rcases hk with hk | hk <;> rw [hk] <;> rfl)) h ht

end Rustla
