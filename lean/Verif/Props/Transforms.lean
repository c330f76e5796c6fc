import Verif.Lemmas.Transforms
import Verif.Model.Parser
import Verif.Spec.Outline
/-!
# C46, C47: the transforms of figures and list tables
-/
namespace Rustla
open Spec

/-! ## The recursion bound of the model is enough -/

theorem height_some {t : TreeNode} {cs : List TreeNode} (h : t.children = some cs) :
    t.height = TreeNode.heightList cs + 1 := by
  cases t; cases h; rfl

theorem height_leaf {t : TreeNode} (h : t.children = none) : t.height = 1 := by
  cases t; cases h; rfl

theorem heightList_le {cs : List TreeNode} {k : Nat} : TreeNode.heightList cs ≤ k ↔ ∀ c ∈ cs, c.height ≤ k := by
  induction cs with
  | nil => simp [TreeNode.heightList]
  | cons c cs ih => rw [TreeNode.heightList, Nat.max_le, ih]; simp

theorem height_setData (t : TreeNode) (d : NodeType) : (t.setData d).height = t.height := by cases t; rfl

theorem height_captioned (t : TreeNode) : (captioned t).height = t.height := by
  unfold captioned; split
  · exact height_setData ..
  · rfl

theorem heightList_marked (cs : List TreeNode) : TreeNode.heightList (markEntries cs) = TreeNode.heightList cs := by
  induction cs with
  | nil => rfl
  | cons c cs ih =>
    cases cs with
    | nil => simp [markEntries, TreeNode.heightList, height_setData]
    | cons d ds => simp only [markEntries, TreeNode.heightList, height_setData] at ih ⊢; rw [ih]

theorem rowOf_height {t t' : TreeNode} (h : rowOf t = .ok t') : t'.height ≤ t.height := by
  rcases rowOf_cases h with ⟨rfl, _⟩ | ⟨_, rfl⟩ | ⟨nested, rest, c, cs, _, hc, _, hn, rfl⟩
  · exact Nat.le_refl _
  · rw [height_setData]
  · rw [height_some (TreeNode.children_setChildren _ _), heightList_marked, height_some hc]
    have := height_some hn
    simp only [TreeNode.heightList] at this ⊢
    omega

theorem transformHere_height {t t' : TreeNode} (h : transformHere t = .ok t') : t'.height ≤ t.height := by
  rcases transformHere_cases h with ⟨rfl, _⟩ | ⟨cs, hk, hc, rfl⟩ | ⟨_, _, rfl⟩ | ⟨list, rest, body, hk, hc, hb, rfl⟩
  · exact Nat.le_refl _
  · rw [height_some (TreeNode.children_setChildren _ _), height_some hc]
    match cs with
    | [] => exact Nat.le_refl _
    | [a] => exact Nat.le_refl _
    | a :: b :: rest => simp only [captionSecond, TreeNode.heightList, height_captioned]; exact Nat.le_refl _
  · exact Nat.le_refl _
  · rw [height_some (TreeNode.children_setChildren _ _), height_some hc]
    have hl : body.height ≤ list.height := by
      rcases tableBody_cases hb with ⟨rfl, _⟩ | ⟨_, _, rfl⟩ | ⟨items, rows, _, hi, hr, rfl⟩
      · exact Nat.le_refl _
      · rw [height_setData]
      · rw [height_some (TreeNode.children_setChildren _ _), height_some hi]
        have : TreeNode.heightList rows ≤ TreeNode.heightList items := by
          rw [heightList_le]
          intro c hc
          obtain ⟨x, hx, hxr⟩ := forall₂_right (rowsOf_forall₂ hr) c hc
          exact Nat.le_trans (rowOf_height hxr) (heightList_le.1 (Nat.le_refl _) x hx)
        omega
    simp only [TreeNode.heightList]
    omega

theorem transformAll_congr {f g : TreeNode → Run TreeNode} {cs : List TreeNode} (h : ∀ c ∈ cs, f c = g c) :
    transformAll f cs = transformAll g cs := by
  induction cs with
  | nil => rfl
  | cons c cs ih => simp only [transformAll, h c (by simp), ih fun d hd => h d (by simp [hd])]

/-- The transform does not depend on the recursion bound, if it is at least the height of the tree. -/
theorem transform_bound {n m : Nat} {t : TreeNode} (hn : t.height ≤ n) (hm : t.height ≤ m) :
    transformUpTo n t = transformUpTo m t := by
  induction n generalizing m t with
  | zero => cases t with | mk i r c d cs => cases cs <;> simp [TreeNode.height] at hn
  | succ n ih =>
    cases m with
    | zero => cases t with | mk i r c d cs => cases cs <;> simp [TreeNode.height] at hm
    | succ m =>
      simp only [transformUpTo]
      cases h1 : transformHere t with
      | error e => rfl
      | ok t1 =>
        simp only [bind, Except.bind]
        have hh := transformHere_height h1
        cases hc : t1.children with
        | none => rfl
        | some cs =>
          have hcs := height_some hc
          simp only
          rw [transformAll_congr fun c hcm => ih (m := m)
            (Nat.le_trans (heightList_le.1 (Nat.le_refl _) c hcm) (by omega))
            (Nat.le_trans (heightList_le.1 (Nat.le_refl _) c hcm) (by omega))]

/-- The recursion bound used by the model is enough: every larger bound gives the same result. -/
theorem transform_enough (t : TreeNode) (n : Nat) (h : t.height ≤ n) : transformUpTo n t = transformTree t :=
  transform_bound h (Nat.le_succ _)

/-! ## C46 -/

/-- What becomes of the data of the node at a place: a paragraph that is the second child of a figure becomes a caption. -/
def captionAt (t : TreeNode) (p : List Nat) (data : NodeType) : NodeType :=
  match p.getLast?, (subtree? t p.dropLast).map TreeNode.kind, data with
  | some 1, some .Figure, .Paragraph indent => .Caption indent
  | _, _, _ => data

/-- Same node, but for the data and what is below. -/
def SameNode (n n' : TreeNode) : Prop :=
  n'.id = n.id ∧ n'.refnames = n.refnames ∧ n'.classes = n.classes ∧
    n'.children.map List.length = n.children.map List.length

/-- The two trees have the same places, and at each place the same node, with the data of captions. -/
def CaptionedTree (t t' : TreeNode) : Prop :=
  ∀ p, match subtree? t p, subtree? t' p with
    | none, none => True
    | some n, some n' => SameNode n n' ∧ n'.data = captionAt t p n.data
    | _, _ => False

theorem subtree_cons {t : TreeNode} {cs : List TreeNode} (hc : t.children = some cs) (i : Nat) (is : List Nat) :
    subtree? t (i :: is) = (cs[i]?).bind fun c => subtree? c is := by
  simp [subtree?, hc]

theorem subtree_cons_leaf {t : TreeNode} (hc : t.children = none) (i : Nat) (is : List Nat) :
    subtree? t (i :: is) = none := by
  simp [subtree?, hc]

theorem captionAt_deep {t : TreeNode} {cs : List TreeNode} (hc : t.children = some cs) {i j : Nat} {js : List Nat}
    {c : TreeNode} (hi : cs[i]? = some c) (d : NodeType) : captionAt t (i :: j :: js) d = captionAt c (j :: js) d := by
  unfold captionAt
  have h1 : (i :: j :: js).getLast? = (j :: js).getLast? := by simp [List.getLast?_cons_cons]
  have h2 : subtree? t (i :: j :: js).dropLast = subtree? c (j :: js).dropLast := by
    rw [List.dropLast_cons_cons, subtree_cons hc, hi]; rfl
  rw [h1, h2]

theorem captionKind_other {k : Kind} (o : Option Nat) (h : k ≠ .Figure) (d : NodeType) :
    (match o, some k, d with
      | some 1, some .Figure, .Paragraph indent => NodeType.Caption indent
      | _, _, _ => d) = d := by
  split
  · rename_i e; simp only [Option.some.injEq] at e; exact absurd e h
  · rfl

/-- A caption below a node whose kind is neither before nor after the change that of a figure. -/
theorem captionAt_child {c c1 : TreeNode} (hch : c1.children = c.children) (hk : c1.kind = .Figure ↔ c.kind = .Figure)
    {j : Nat} {js : List Nat} (d : NodeType) : captionAt c1 (j :: js) d = captionAt c (j :: js) d := by
  cases js with
  | nil =>
    unfold captionAt
    simp only [List.getLast?_singleton, List.dropLast_singleton, subtree?, Option.map_some]
    by_cases h : c.kind = .Figure
    · rw [h, hk.2 h]
    · have h' : c1.kind ≠ .Figure := fun e => h (hk.1 e)
      rw [captionKind_other _ h', captionKind_other _ h]
  | cons k ks =>
    cases hc : c.children with
    | none =>
      unfold captionAt
      rw [List.dropLast_cons_cons, subtree_cons_leaf (hch.trans hc), subtree_cons_leaf hc]
    | some cs =>
      cases hj : cs[j]? with
      | none =>
        unfold captionAt
        rw [List.dropLast_cons_cons, subtree_cons (hch.trans hc), subtree_cons hc, hj]
      | some e => rw [captionAt_deep (hch.trans hc) hj, captionAt_deep hc hj]

theorem captioned_same (t : TreeNode) : SameNode t (captioned t) ∧ (captioned t).children = t.children ∧
    ((captioned t).kind = .Figure ↔ t.kind = .Figure) := by
  unfold captioned
  split
  · rename_i i h
    refine ⟨?_, ?_, ?_⟩
    · cases t; exact ⟨rfl, rfl, rfl, rfl⟩
    · cases t; rfl
    · unfold TreeNode.kind; rw [h]; cases t; simp [TreeNode.setData, TreeNode.data, NodeType.kind]
  · exact ⟨⟨rfl, rfl, rfl, rfl⟩, rfl, Iff.rfl⟩

/-- The child at a place of a node after its own treatment. -/
theorem transformHere_child {t t1 : TreeNode} (h : transformHere t = .ok t1) (hno : t.kind ≠ .ListTable)
    {cs : List TreeNode} (hc : t.children = some cs) :
    ∃ cs1, t1.children = some cs1 ∧ cs1.length = cs.length ∧ ∀ i c, cs[i]? = some c →
      ∃ c1, cs1[i]? = some c1 ∧ SameNode c c1 ∧ c1.data = captionAt t [i] c.data ∧ c1.children = c.children ∧
        (c1.kind = .Figure ↔ c.kind = .Figure) := by
  have hrefl : ∀ c : TreeNode, SameNode c c := fun c => ⟨rfl, rfl, rfl, rfl⟩
  rcases transformHere_cases h with ⟨rfl, hk⟩ | ⟨cs', hk, hc', rfl⟩ | ⟨hk, _, _⟩ | ⟨_, _, _, hk, _⟩
  · rcases hk with hk | ⟨hk, _⟩
    · rw [hk] at hc; cases hc
    · refine ⟨cs, hc, rfl, fun i c hi => ⟨c, hi, hrefl c, ?_, rfl, Iff.rfl⟩⟩
      unfold captionAt
      simp only [List.getLast?_singleton, List.dropLast_singleton, subtree?, Option.map_some]
      split
      · rename_i e _; simp only [Option.some.injEq] at e; exact absurd e hk
      · rfl
  · rw [hc] at hc'; cases hc'
    have hfig : ∀ i (c : TreeNode), captionAt t [i] c.data = if i = 1 then (captioned c).data else c.data := by
      intro i c
      unfold captionAt captioned
      simp only [List.getLast?_singleton, List.dropLast_singleton, subtree?, Option.map_some, hk]
      by_cases hi : i = 1
      · subst hi
        cases hd : c.data <;> simp [hd]
      · rw [if_neg hi]
        split
        · rename_i e _ _; simp only [Option.some.injEq] at e; exact absurd e hi
        · rfl
    refine ⟨_, TreeNode.children_setChildren _ _, ?_, ?_⟩
    · match cs with
      | [] => rfl
      | [_] => rfl
      | _ :: _ :: _ => rfl
    · intro i c hi
      rw [hfig]
      match cs, hi with
      | [a], hi =>
        cases i with
        | zero => have e : a = c := by simpa using hi
                  rw [← e]; exact ⟨a, rfl, hrefl _, by simp, rfl, Iff.rfl⟩
        | succ i => simp at hi
      | a :: b :: rest, hi =>
        match i, hi with
        | 0, hi =>
          have e : a = c := by simpa using hi
          rw [← e]; exact ⟨a, rfl, hrefl _, by simp, rfl, Iff.rfl⟩
        | 1, hi =>
          have e : b = c := by simpa using hi
          rw [← e]
          obtain ⟨k1, k2, k3⟩ := captioned_same b
          exact ⟨captioned b, rfl, k1, by simp, k2, k3⟩
        | i + 2, hi => exact ⟨c, by simpa [captionSecond] using hi, hrefl _, by simp, rfl, Iff.rfl⟩
  · exact absurd hk hno
  · exact absurd hk hno

theorem forall₂_get {α β : Type} {R : α → β → Prop} {l : List α} {l' : List β} (h : List.Forall₂ R l l') (i : Nat) :
    match l[i]?, l'[i]? with
    | none, none => True
    | some x, some y => R x y
    | _, _ => False := by
  induction h generalizing i with
  | nil => simp
  | cons hab _ ih =>
    cases i with
    | zero => simpa using hab
    | succ i => simpa using ih i

/-- **C46.** For every tree without list tables: the transform succeeds, every node stays at its place with its identifier,
its labels, its classes and the number of its children, and its data stay the same, except that the second child of a
figure becomes a caption if it is a paragraph. -/
theorem C46_captions (t : TreeNode) (hno : ∀ n ∈ preorder t, n.kind ≠ .ListTable) :
    ∃ t', transformTree t = .ok t' ∧ CaptionedTree t t' := by
  have key : ∀ n, ∀ t : TreeNode, t.height ≤ n → (∀ x ∈ preorder t, x.kind ≠ .ListTable) →
      ∃ t', transformUpTo n t = .ok t' ∧ CaptionedTree t t' := by
    intro n
    induction n with
    | zero => intro t ht; cases t with | mk i r c d cs => cases cs <;> simp [TreeNode.height] at ht
    | succ n ih =>
      intro t ht hno
      have hkt := hno t (self_mem_preorder t)
      cases hc : t.children with
      | none =>
        have h1 : transformHere t = .ok t := by unfold transformHere; rw [hc]
        refine ⟨t, by simp only [transformUpTo, h1, bind, Except.bind, hc]; rfl, ?_⟩
        intro p
        cases p with
        | nil => simp only [subtree?]; exact ⟨⟨rfl, rfl, rfl, rfl⟩, rfl⟩
        | cons i is => rw [subtree_cons_leaf hc]; trivial
      | some cs =>
        have h1 : ∃ t1, transformHere t = .ok t1 := by
          unfold transformHere; rw [hc]
          by_cases hf : t.kind = .Figure
          · exact ⟨_, by simp only [if_pos hf]; rfl⟩
          · exact ⟨_, by simp only [if_neg hf, if_neg hkt]; rfl⟩
        obtain ⟨t1, h1⟩ := h1
        obtain ⟨cs1, hc1, hlen, hch⟩ := transformHere_child h1 hkt hc
        have hnoC : ∀ c ∈ cs, ∀ x ∈ preorder c, x.kind ≠ .ListTable := by
          intro c hcm x hx
          exact hno x (by rw [preorder_node _ _ hc]; exact List.mem_cons_of_mem _ (mem_preorderList hcm hx))
        -- the children before and after their parent's treatment
        have hpair : ∀ i c1, cs1[i]? = some c1 → ∃ c, cs[i]? = some c ∧ SameNode c c1 ∧
            c1.data = captionAt t [i] c.data ∧ c1.children = c.children ∧ (c1.kind = .Figure ↔ c.kind = .Figure) := by
          intro i c1 hi
          have hlt : i < cs.length := by rw [← hlen]; exact (List.getElem?_eq_some_iff.1 hi).1
          obtain ⟨c1', h2, h3⟩ := hch i cs[i] (by simp [hlt])
          rw [hi] at h2; cases h2
          exact ⟨cs[i], by simp [hlt], h3⟩
        have hno1 : ∀ c1 ∈ cs1, ∀ x ∈ preorder c1, x.kind ≠ .ListTable := by
          intro c1 hcm x hx
          obtain ⟨i, hi⟩ := List.mem_iff_getElem?.1 hcm
          obtain ⟨c, h2, _, h4, h5, h6⟩ := hpair i c1 hi
          have hmem := List.mem_of_getElem? h2
          cases hcc : c.children with
          | none =>
            rw [preorder_leaf _ (h5.trans hcc)] at hx
            simp only [List.mem_singleton] at hx
            subst hx
            unfold TreeNode.kind
            rw [h4]
            have := hnoC c hmem c (self_mem_preorder c)
            unfold captionAt
            split
            · simp [NodeType.kind]
            · exact this
          | some ds =>
            rw [preorder_node _ _ (h5.trans hcc)] at hx
            rcases List.mem_cons.1 hx with rfl | hx
            · unfold TreeNode.kind
              rw [h4]
              have := hnoC c hmem c (self_mem_preorder c)
              unfold captionAt
              split
              · simp [NodeType.kind]
              · exact this
            · exact hnoC c hmem x (by rw [preorder_node _ _ hcc]; exact List.mem_cons_of_mem _ hx)
        have hheight : ∀ c1 ∈ cs1, c1.height ≤ n := by
          intro c1 hcm
          have h2 := transformHere_height h1
          have h3 := height_some hc1
          have h4 := heightList_le.1 (Nat.le_refl _) c1 hcm
          omega
        have hall : ∃ cs', transformAll (transformUpTo n) cs1 = .ok cs' ∧
            List.Forall₂ (fun a b => CaptionedTree a b) cs1 cs' := by
          clear hpair hc1 hlen hch
          induction cs1 with
          | nil => exact ⟨[], rfl, .nil⟩
          | cons c cs1 ihc =>
            obtain ⟨c', k1, k2⟩ := ih c (hheight c (by simp)) (hno1 c (by simp))
            obtain ⟨cs', k3, k4⟩ := ihc (fun x hx => hno1 x (by simp [hx])) (fun x hx => hheight x (by simp [hx]))
            exact ⟨c' :: cs', by simp only [transformAll, k1, k3, bind, Except.bind]; rfl, .cons k2 k4⟩
        obtain ⟨cs', k1, k2⟩ := hall
        refine ⟨t1.setChildren (some cs'), by simp only [transformUpTo, h1, bind, Except.bind, hc1, k1]; rfl, ?_⟩
        intro p
        obtain ⟨d1, d2, d3, d4⟩ := transformHere_data h1
        cases p with
        | nil =>
          simp only [subtree?]
          refine ⟨⟨?_, ?_, ?_, ?_⟩, ?_⟩
          · rw [← d2]; cases t1; rfl
          · rw [← d3]; cases t1; rfl
          · rw [← d4]; cases t1; rfl
          · rw [hc, TreeNode.children_setChildren, Option.map_some, Option.map_some, ← k2.length_eq, hlen]
          · rw [TreeNode.data_setChildren, d1]; rfl
        | cons i is =>
          rw [subtree_cons hc, subtree_cons (TreeNode.children_setChildren _ _)]
          have hget := forall₂_get k2 i
          cases hi : cs[i]? with
          | none =>
            have : cs1[i]? = none := by
              rw [List.getElem?_eq_none_iff] at hi ⊢; omega
            rw [this] at hget
            cases hi' : cs'[i]? with
            | none => trivial
            | some x => rw [hi'] at hget; exact hget.elim
          | some c =>
            obtain ⟨c1, e1, e2, e3, e4, e5⟩ := hch i c hi
            rw [e1] at hget
            cases hi' : cs'[i]? with
            | none => rw [hi'] at hget; exact hget.elim
            | some c' =>
              rw [hi'] at hget
              simp only [Option.bind_some]
              have hp := hget is
              cases is with
              | nil =>
                simp only [subtree?] at hp ⊢
                refine ⟨⟨hp.1.1.trans e2.1, hp.1.2.1.trans e2.2.1, hp.1.2.2.1.trans e2.2.2.1,
                  hp.1.2.2.2.trans e2.2.2.2⟩, ?_⟩
                rw [hp.2, ← e3]; rfl
              | cons j js =>
                have hs : subtree? c1 (j :: js) = subtree? c (j :: js) := by
                  simp only [subtree?, e4]
                rw [hs] at hp
                cases hx : subtree? c (j :: js) with
                | none =>
                  rw [hx] at hp
                  cases hy : subtree? c' (j :: js) with
                  | none => trivial
                  | some y => rw [hy] at hp; exact hp.elim
                | some x =>
                  rw [hx] at hp
                  cases hy : subtree? c' (j :: js) with
                  | none => rw [hy] at hp; exact hp.elim
                  | some y =>
                    rw [hy] at hp
                    refine ⟨hp.1, ?_⟩
                    rw [hp.2, captionAt_child e4 e5, captionAt_deep hc hi]
  exact key _ t (Nat.le_succ _) hno

/-! ## C47 -/

/-- The transform of a node from its own treatment and the transforms of its children. -/
theorem transformTree_of {t t1 : TreeNode} {cs cs' : List TreeNode} (h1 : transformHere t = .ok t1)
    (hc : t1.children = some cs) (hf : List.Forall₂ (fun a b => transformTree a = .ok b) cs cs') :
    transformTree t = .ok (t1.setChildren (some cs')) := by
  have hh := transformHere_height h1
  have h2 := height_some hc
  have hb : ∀ c ∈ cs, transformUpTo t.height c = transformTree c := fun c hcm =>
    transform_enough c _ (by have := heightList_le.1 (Nat.le_refl _) c hcm; omega)
  have ha : transformAll (transformUpTo t.height) cs = .ok cs' := by
    rw [transformAll_congr hb]
    clear hb hc h2
    induction hf with
    | nil => rfl
    | cons hab _ ih => simp only [transformAll, hab, ih, bind, Except.bind]; rfl
  simp only [transformTree, transformUpTo, h1, bind, Except.bind, hc, ha]; rfl

theorem transformTree_leaf {t : TreeNode} (hc : t.children = none) : transformTree t = .ok t := by
  have h1 : transformHere t = .ok t := by unfold transformHere; rw [hc]
  simp only [transformTree, transformUpTo, h1, bind, Except.bind, hc]; rfl

theorem transformHere_plain {t : TreeNode} (h1 : t.kind ≠ .Figure) (h2 : t.kind ≠ .ListTable) :
    transformHere t = .ok t := by
  unfold transformHere
  split
  · rfl
  · rw [if_neg h1, if_neg h2]

/-- The entry made from an item of an inner list: it keeps the identifier, labels, classes and contents of the item, its
contents are themselves transformed, and it says whether it is the last one of its row. -/
def EntryOf (last : Bool) (item entry : TreeNode) : Prop :=
  entry.data = .Entry last ∧ entry.id = item.id ∧ entry.refnames = item.refnames ∧ entry.classes = item.classes ∧
    ((item.children = none ∧ entry.children = none) ∨
      ∃ xs ys, item.children = some xs ∧ entry.children = some ys ∧
        List.Forall₂ (fun x y => transformTree x = .ok y) xs ys)

/-- The row made from an item of the outer list: its entries are made from the items of the inner list, in order, and
exactly the last one is marked as last. -/
def RowOf (item row : TreeNode) : Prop :=
  row.data = .TRow ∧ row.id = item.id ∧ row.refnames = item.refnames ∧ row.classes = item.classes ∧
    ∃ nested cells entries, item.children = some [nested] ∧ nested.children = some cells ∧
      row.children = some entries ∧ entries.length = cells.length ∧
      ∀ i c e, cells[i]? = some c → entries[i]? = some e → EntryOf (decide (i + 1 = cells.length)) c e

/-- The item of the outer list of a list table holds a single, non-empty list, whose contents can be transformed. -/
def GoodRow (item : TreeNode) : Prop :=
  item.kind = .BulletListItem ∧ ∃ nested cells, item.children = some [nested] ∧ nested.kind = .BulletList ∧
    nested.children = some cells ∧ cells ≠ [] ∧
    ∀ c ∈ cells, ∀ xs, c.children = some xs → ∀ x ∈ xs, ∃ y, transformTree x = .ok y

theorem markEntries_get (cs : List TreeNode) (i : Nat) :
    (markEntries cs)[i]? = (cs[i]?).map fun c => c.setData (.Entry (decide (i + 1 = cs.length))) := by
  induction cs generalizing i with
  | nil => simp [markEntries]
  | cons c cs ih =>
    cases cs with
    | nil => cases i <;> simp [markEntries]
    | cons d ds =>
      cases i with
      | zero => simp [markEntries]
      | succ i => simp only [markEntries, List.getElem?_cons_succ, ih, List.length_cons, Nat.add_right_cancel_iff]

theorem markEntries_length (cs : List TreeNode) : (markEntries cs).length = cs.length := by
  induction cs with
  | nil => rfl
  | cons c cs ih =>
    cases cs with
    | nil => rfl
    | cons d ds => simp only [markEntries, List.length_cons] at ih ⊢; rw [ih]

theorem markEntries_kind (cs : List TreeNode) : ∀ c ∈ markEntries cs, c.kind = .Entry := by
  intro c hc
  obtain ⟨i, hi⟩ := List.mem_iff_getElem?.1 hc
  rw [markEntries_get] at hi
  cases h : cs[i]? with
  | none => rw [h] at hi; cases hi
  | some x => rw [h] at hi; cases hi; cases x; rfl

theorem allAllowed_entries (cs : List TreeNode) (h : ∀ c ∈ cs, c.kind = .Entry) :
    TreeNode.allAllowed .TRow cs = .ok () := by
  induction cs with
  | nil => rfl
  | cons c cs ih =>
    have h1 : childIsAllowed .TRow .Entry = .ok true := by decide +kernel
    simp only [TreeNode.allAllowed, h c (by simp), h1, bind, Except.bind, if_true]
    exact ih fun x hx => h x (by simp [hx])

theorem rowOf_good {item nested : TreeNode} {cells : List TreeNode} (hk : item.kind = .BulletListItem)
    (hc : item.children = some [nested]) (hn : nested.kind = .BulletList) (hcells : nested.children = some cells)
    (hne : cells ≠ []) : rowOf item = .ok ((item.setData .TRow).setChildren (some (markEntries cells))) := by
  obtain ⟨c, cs, rfl⟩ := List.exists_cons_of_ne_nil hne
  have h1 : rowCells nested = .ok (markEntries (c :: cs)) := by unfold rowCells; rw [hcells]
  have h2 : ((item.setData .TRow).setChildren (some [])).kind = .TRow := by cases item; rfl
  unfold rowOf
  rw [if_pos hk, hc]
  simp only [if_pos hn, h1, bind, Except.bind, TreeNode.appendChildren, h2,
    allAllowed_entries _ (markEntries_kind (c :: cs)), TreeNode.children_setChildren, List.nil_append]
  cases item; rfl

theorem forall₂_exists {α β : Type} {R : α → β → Prop} {l : List α} (h : ∀ x ∈ l, ∃ y, R x y) :
    ∃ l', List.Forall₂ R l l' := by
  induction l with
  | nil => exact ⟨[], .nil⟩
  | cons x l ih =>
    obtain ⟨y, hy⟩ := h x (by simp)
    obtain ⟨l', hl⟩ := ih fun z hz => h z (by simp [hz])
    exact ⟨y :: l', .cons hy hl⟩

/-- An entry after its own transform. -/
theorem entry_transform {c : TreeNode} (last : Bool)
    (hx : ∀ xs, c.children = some xs → ∀ x ∈ xs, ∃ y, transformTree x = .ok y) :
    ∃ e, transformTree (c.setData (.Entry last)) = .ok e ∧ EntryOf last c e := by
  have hk : (c.setData (.Entry last)).kind = .Entry := by cases c; rfl
  have h1 : transformHere (c.setData (.Entry last)) = .ok (c.setData (.Entry last)) :=
    transformHere_plain (by rw [hk]; exact Kind.noConfusion) (by rw [hk]; exact Kind.noConfusion)
  cases hc : c.children with
  | none =>
    refine ⟨_, transformTree_leaf (by simpa using hc), ?_⟩
    exact ⟨by simp, by cases c; rfl, by cases c; rfl, by cases c; rfl, .inl ⟨hc, by simpa using hc⟩⟩
  | some xs =>
    obtain ⟨ys, hys⟩ := forall₂_exists (hx xs hc)
    refine ⟨_, transformTree_of h1 (by simpa using hc) hys, ?_⟩
    exact ⟨by simp, by cases c; rfl, by cases c; rfl, by cases c; rfl,
      .inr ⟨xs, ys, hc, TreeNode.children_setChildren _ _, hys⟩⟩

/-- A row after its own transform. -/
theorem row_transform {item : TreeNode} (h : GoodRow item) :
    ∃ r row, rowOf item = .ok r ∧ transformTree r = .ok row ∧ RowOf item row := by
  obtain ⟨hk, nested, cells, hc, hn, hcells, hne, hx⟩ := h
  have hr := rowOf_good hk hc hn hcells hne
  have hk' : ((item.setData .TRow).setChildren (some (markEntries cells))).kind = .TRow := by cases item; rfl
  have hex : ∃ entries, List.Forall₂ (fun a b => transformTree a = .ok b) (markEntries cells) entries := by
    refine forall₂_exists fun m hm => ?_
    obtain ⟨i, hi⟩ := List.mem_iff_getElem?.1 hm
    rw [markEntries_get] at hi
    cases hci : cells[i]? with
    | none => rw [hci] at hi; cases hi
    | some c =>
      rw [hci] at hi; cases hi
      obtain ⟨e, he, _⟩ := entry_transform (c := c) (decide (i + 1 = cells.length))
        (hx c (List.mem_of_getElem? hci))
      exact ⟨e, he⟩
  obtain ⟨entries, hent⟩ := hex
  refine ⟨_, _, hr, transformTree_of (transformHere_plain (by rw [hk']; exact Kind.noConfusion)
    (by rw [hk']; exact Kind.noConfusion)) (TreeNode.children_setChildren _ _) hent, ?_⟩
  refine ⟨by cases item; rfl, by cases item; rfl, by cases item; rfl, by cases item; rfl, nested, cells, entries, hc,
    hcells, TreeNode.children_setChildren _ _, ?_, ?_⟩
  · rw [← hent.length_eq, markEntries_length]
  · intro i c e hi hie
    have hg := forall₂_get hent i
    rw [markEntries_get, hi, hie] at hg
    simp only [Option.map_some] at hg
    obtain ⟨e', he, hE⟩ := entry_transform (c := c) (decide (i + 1 = cells.length))
      (hx c (List.mem_of_getElem? hi))
    rw [he] at hg; cases hg
    exact hE

/-- **C47.** The transform of a list table whose first child is a list of rows, each of them a list with at least one
cell: the node, its labels and its classes stay, the list becomes the body of the table, and each of its items a row,
whose entries are made from the cells: same number, same order, same contents, and the last one and no other marked as
last. What follows the list in the table is transformed separately. -/
theorem C47_list_tables (t list : TreeNode) (items rest : List TreeNode) (hk : t.kind = .ListTable)
    (hc : t.children = some (list :: rest)) (hl : list.kind = .BulletList) (hi : list.children = some items)
    (hrows : ∀ item ∈ items, GoodRow item) (hrest : ∀ x ∈ rest, ∃ y, transformTree x = .ok y) :
    ∃ t' body rows rest', transformTree t = .ok t' ∧
      t'.data = t.data ∧ t'.id = t.id ∧ t'.refnames = t.refnames ∧ t'.classes = t.classes ∧
      t'.children = some (body :: rest') ∧ List.Forall₂ (fun x y => transformTree x = .ok y) rest rest' ∧
      body.data = .TBody ∧ body.id = list.id ∧ body.refnames = list.refnames ∧ body.classes = list.classes ∧
      body.children = some rows ∧ List.Forall₂ RowOf items rows := by
  obtain ⟨rest', hrest'⟩ := forall₂_exists hrest
  have hmake : ∃ rs rows, rowsOf items = .ok rs ∧ List.Forall₂ (fun a b => transformTree a = .ok b) rs rows ∧
      List.Forall₂ RowOf items rows := by
    clear hi
    induction items with
    | nil => exact ⟨[], [], rfl, .nil, .nil⟩
    | cons item items ih =>
      obtain ⟨r, row, h1, h2, h3⟩ := row_transform (hrows item (by simp))
      obtain ⟨rs, rows, h4, h5, h6⟩ := ih fun x hx => hrows x (by simp [hx])
      exact ⟨r :: rs, row :: rows, by simp only [rowsOf, h1, h4, bind, Except.bind]; rfl, .cons h2 h5, .cons h3 h6⟩
  obtain ⟨rs, rows, h1, h2, h3⟩ := hmake
  have hb : tableBody list = .ok ((list.setData .TBody).setChildren (some rs)) := by
    unfold tableBody; rw [if_pos hl, hi]; simp only [h1, bind, Except.bind]; rfl
  have ht : transformHere t = .ok (t.setChildren (some ((list.setData .TBody).setChildren (some rs) :: rest))) := by
    unfold transformHere
    rw [hc]
    simp only [tableChildren, hb, bind, Except.bind, if_pos hk]
    rw [if_neg (by rw [hk]; exact Kind.noConfusion)]; rfl
  have hkb : ((list.setData .TBody).setChildren (some rs)).kind = .TBody := by cases list; rfl
  have hbt := transformTree_of (transformHere_plain (t := (list.setData .TBody).setChildren (some rs))
    (by rw [hkb]; exact Kind.noConfusion) (by rw [hkb]; exact Kind.noConfusion)) (TreeNode.children_setChildren _ _) h2
  refine ⟨_, ((list.setData .TBody).setChildren (some rs)).setChildren (some rows), rows, rest', transformTree_of ht (TreeNode.children_setChildren _ _) (.cons hbt hrest'), ?_⟩
  refine ⟨by simp, by cases t; rfl, by cases t; rfl, by cases t; rfl, TreeNode.children_setChildren _ _, hrest',
    by cases list; rfl, by cases list; rfl, by cases list; rfl, by cases list; rfl, TreeNode.children_setChildren _ _, h3⟩

/-! ## Documents that meet the hypotheses -/

/-- The kinds and identifiers of the nodes of a parsed document, before and after the transforms. -/
def kindsAround (r : Run ParsingResult) : Option (List (Kind × Nat) × List (Kind × Nat)) :=
  match r with
  | .ok r => match r.root, r.doc.transform with
    | some t, .ok d => some ((preorder t).map fun n => (n.kind, n.id), (preorder d.tree.node).map fun n => (n.kind, n.id))
    | _, _ => none
  | .error _ => none

/-- A figure with a caption and a legend (`C46_captions`). -/
def sampleFigure : List Str :=
  [str! ".. figure:: a.png", str! "  :width: 100%", [], str! "  caption", [], str! "  legend", [], []]

/-- A list table of two rows and two columns (`C47_list_tables`). -/
def sampleTable : List Str :=
  [str! ".. list-table:: T", str! "  :widths: 1 1", str! "  :header-rows: 1", [], str! "  * - A", str! "    - *c*", [],
   str! "  * - C", str! "    - D", [], []]

example : kindsAround (parseDocument 60 (str! "f") (str! "d") sampleFigure) = some
    ([(.Document, 0), (.Figure, 1), (.Image, 2), (.Paragraph, 3), (.Text, 4), (.Paragraph, 5), (.Text, 6)],
     [(.Document, 0), (.Figure, 1), (.Image, 2), (.Caption, 3), (.Text, 4), (.Paragraph, 5), (.Text, 6)]) := by
  decide +kernel

example : kindsAround (parseDocument 60 (str! "f") (str! "d") sampleTable) = some
    ([(.Document, 0), (.ListTable, 1), (.BulletList, 2), (.BulletListItem, 3), (.BulletList, 4), (.BulletListItem, 5),
      (.Paragraph, 6), (.Text, 7), (.BulletListItem, 8), (.Paragraph, 9), (.Emphasis, 10), (.BulletListItem, 11),
      (.BulletList, 12), (.BulletListItem, 13), (.Paragraph, 14), (.Text, 15), (.BulletListItem, 16), (.Paragraph, 17),
      (.Text, 18)],
     [(.Document, 0), (.ListTable, 1), (.TBody, 2), (.TRow, 3), (.Entry, 5), (.Paragraph, 6), (.Text, 7), (.Entry, 8),
      (.Paragraph, 9), (.Emphasis, 10), (.TRow, 11), (.Entry, 13), (.Paragraph, 14), (.Text, 15), (.Entry, 16),
      (.Paragraph, 17), (.Text, 18)]) := by
  decide +kernel

/-- The row of a table: an item that holds a list of two items. -/
example : GoodRow (.mk 3 none none (.BulletListItem '*' 0 2) (some [.mk 4 none none (.BulletList '-' 2 4) (some
    [.mk 5 none none (.BulletListItem '-' 2 4) (some [.mk 6 none none (.Paragraph 4) (some [])]),
     .mk 8 none none (.BulletListItem '-' 2 4) (some [])])])) := by
  refine ⟨rfl, _, _, rfl, rfl, rfl, by simp, ?_⟩
  intro c hc xs hx x hxm
  simp only [List.mem_cons, List.not_mem_nil, or_false] at hc
  rcases hc with rfl | rfl
  · cases hx; simp only [List.mem_singleton] at hxm; subst hxm; exact ⟨_, rfl⟩
  · cases hx; cases hxm

end Rustla
