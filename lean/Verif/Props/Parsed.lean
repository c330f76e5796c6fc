import Verif.Lemmas.Local
import Verif.Props.Labels
import Verif.Spec.Outline
/-!
# C16, C17, C20, C21 for documents made by the parser

The document of a parse, whether it succeeds or fails (the program goes on with it in both cases), is built by the
operations of `DocOp`.
-/
namespace Rustla
open Spec Relation

/-! ## The parser uses the document-building operations only -/

theorem runAll_append (d : DocTree) (a b : List DocOp) :
    DocOp.runAll d (a ++ b) = (DocOp.runAll d a).bind fun d' => DocOp.runAll d' b := by
  induction a generalizing d with
  | nil => rfl
  | cons op ops ih =>
    simp only [List.cons_append, DocOp.runAll]
    cases op.run d with
    | error e => rfl
    | ok d' => simp only [bind, Except.bind]; exact ih d'

/-- `ops` lead from `d` to `d'`. -/
def Ops (d d' : DocTree) : Prop := ∃ ops, (∀ op ∈ ops, NoRawSection op) ∧ DocOp.runAll d ops = .ok d'

theorem Ops.refl (d : DocTree) : Ops d d := ⟨[], by simp, rfl⟩

theorem Ops.trans {a b c : DocTree} (h1 : Ops a b) (h2 : Ops b c) : Ops a c := by
  obtain ⟨o1, n1, e1⟩ := h1
  obtain ⟨o2, n2, e2⟩ := h2
  refine ⟨o1 ++ o2, fun op h => (List.mem_append.1 h).elim (n1 op) (n2 op), ?_⟩
  rw [runAll_append, e1]; exact e2

theorem Ops.one {d d' : DocTree} (op : DocOp) (hn : NoRawSection op) (h : op.run d = .ok d') : Ops d d' :=
  ⟨[op], by simpa using hn, by simp [DocOp.runAll, h, bind, Except.bind, pure, Except.pure]⟩

theorem Ops.fields (d : DocTree) (data : NodeType) (hk : data.kind = d.sharedData.kind) : Ops d (d.setNodeData data) :=
  Ops.one (.setFields data) trivial (by
    simp only [DocOp.run]
    rw [if_pos (show data.kind = d.tree.node.kind from hk)]; rfl)

theorem quiet_ops {d d' : DocTree} (h : Quiet d d') : Ops d d' := by
  cases h with
  | internalTarget l => exact Ops.one (.internalTarget l) trivial rfl
  | anonReference => exact Ops.one .anonReference trivial rfl

theorem pushFocus_ops {d d' : DocTree} {data : NodeType} {b : Bool} (hk : data.kind ≠ .Section)
    (h : d.pushDataAndFocus data = .ok (b, d')) : Ops d d' :=
  Ops.one (.pushAndFocus data) hk (by simp [DocOp.run, h, bind, Except.bind, pure, Except.pure])

theorem pushNode_ops {d d' : DocTree} {data : NodeType} {b : Bool} (hk : data.kind ≠ .Section)
    (h : d.pushChild (TreeNode.new data d.nodeCount none none) = .ok (b, d')) : Ops d d' :=
  Ops.one (.pushNode data) hk (by simp [DocOp.run, h, bind, Except.bind, pure, Except.pure])

theorem openSection_ops {d d' : DocTree} {title : Str} {style : SectionLineStyle} {b : Bool}
    (h : d.pushDataAndFocus (d.newSectionData title style) = .ok (b, d')) : Ops d d' :=
  Ops.one (.sectionAndFocus title style) trivial (by simp [DocOp.run, h, bind, Except.bind, pure, Except.pure])

theorem tame_addAnswer (a : Str) : Tame (addAnswer a) := by
  intro x; unfold addAnswer; split
  · exact ⟨rfl, fun h => by cases h⟩
  · exact ⟨rfl, fun _ => rfl⟩

theorem tame_setWidths (n : Nat) : Tame (setWidths n) := by
  intro x; unfold setWidths; split
  · exact ⟨rfl, fun h => by cases h⟩
  · exact ⟨rfl, fun _ => rfl⟩

theorem build_ops {d d' : DocTree} (h : Build d d') : Ops d d' := by
  cases h with
  | quiet h => exact quiet_ops h
  | anonTarget => exact Ops.one .anonTarget trivial rfl
  | push data hk h =>
    exact Ops.one (.push data) (plainData_ne_section hk) (by simp [DocOp.run, h, bind, Except.bind, pure, Except.pure])
  | pushFocus data hk h => exact pushFocus_ops (plainData_ne_section hk) h
  | pushNode data hk h => exact pushNode_ops (by rcases hk with h | h <;> rw [h] <;> simp) h
  | parent h => exact Ops.one .parent trivial h
  | openSection title style hf h => exact openSection_ops h
  | question p data hq h =>
    exact (Ops.fields d _ (tame_addPoints p _).1).trans
      (pushFocus_ops (by intro e; cases data <;> first | (cases hq; done) | cases e) h)
  | enumItem data hk h =>
    exact (Ops.fields d _ (tame_addItem _).1).trans (pushFocus_ops (by rw [hk]; simp) h)
  | answer a => exact Ops.fields d _ (tame_addAnswer a _).1
  | widths n => exact Ops.fields d _ (tame_setWidths n _).1
  | emptied i h1 h2 h3 =>
    refine (pushFocus_ops (data := .Paragraph i) (by simp [NodeType.kind]) h1).trans ?_
    refine Ops.trans ?_ ((Ops.one .parent trivial h3).trans (Ops.one .pop trivial rfl))
    induction h2 with
    | refl => exact Ops.refl _
    | tail _ hq ih =>
      rename_i b c h12
      clear h3
      exact Ops.trans (by
        clear ih hq
        induction h12 with
        | refl => exact Ops.refl _
        | tail _ hq ih => exact ih.trans (quiet_ops hq)) (quiet_ops hq)

theorem loose_ops {d d' : DocTree} (h : Loose d d') : Ops d d' := by
  cases h with
  | build h => exact build_ops h
  | refused data hk h => exact pushFocus_ops hk h
  | refusedNode data hk h => exact pushNode_ops hk h
  | refusedSection title style h => exact openSection_ops h
  | fields data hk hs => exact Ops.fields d data hk

theorem looseSteps_ops {d d' : DocTree} (h : LooseSteps d d') : Ops d d' := by
  induction h with
  | refl => exact Ops.refl _
  | tail _ h ih => exact ih.trans (loose_ops h)

theorem parseDocument_loose {fuel : Nat} {stem folder : Str} {lines : List Str} {r : ParsingResult}
    (h : parseDocument fuel stem folder lines = .ok r) : LooseSteps (DocTree.new stem folder) r.doc := by
  have := parseDocument_steps h
  cases r with
  | eof d stack => exact steps_loose this
  | emptyStateStack d stack => exact steps_loose this
  | failure d => exact this

/-- The document of every parse is built from an empty one by document-building operations; sections are made with
`new_section_data` only. -/
theorem parsed_ops {fuel : Nat} {stem folder : Str} {lines : List Str} {r : ParsingResult}
    (h : parseDocument fuel stem folder lines = .ok r) :
    ∃ ops, (∀ op ∈ ops, NoRawSection op) ∧ DocOp.runAll (DocTree.new stem folder) ops = .ok r.doc :=
  looseSteps_ops (parseDocument_loose h)

theorem parsed_reachable {fuel : Nat} {stem folder : Str} {lines : List Str} {r : ParsingResult}
    (h : parseDocument fuel stem folder lines = .ok r) : Reachable r.doc := by
  obtain ⟨ops, _, h⟩ := parsed_ops h
  exact ⟨stem, folder, ops, h⟩

/-! ## C16, C17 -/

/-- **C16 for the parser.** For every input, in the document of the parse every node is of a kind that its parent
accepts. -/
theorem C16_parsed_pairs (fuel : Nat) (stem folder : Str) (lines : List Str) (r : ParsingResult)
    (h : parseDocument fuel stem folder lines = .ok r) :
    ∃ t, IsDoc r.doc.tree t ∧ AllPairs (fun p c => childIsAllowed p.kind c.kind = .ok true) t :=
  C16_permitted_pairs _ (parsed_reachable h)

/-- **C17 for the parser.** For every input, no two nodes of the document of the parse have the same identifier. -/
theorem C17_parsed_ids (fuel : Nat) (stem folder : Str) (lines : List Str) (r : ParsingResult)
    (h : parseDocument fuel stem folder lines = .ok r) :
    ∃ t, IsDoc r.doc.tree t ∧ ((preorder t).map TreeNode.id).Nodup ∧ ∀ n ∈ preorder t, n.id < r.doc.nodeCount :=
  C17_unique_ids _ (parsed_reachable h)

/-! ## C21 -/

/-- What the section invariant looks at. -/
def sectionView (d : NodeType) : Option Nat × Kind := (asSection d, d.kind)

/-- Sections are children of the document or of sections of smaller level; the document is nobody's child. -/
def SectionLocal (d : NodeType) (vs : List (Option Nat × Kind)) : Prop :=
  ∀ v ∈ vs, v.2 ≠ .Document ∧ ∀ l, v.1 = some l → d.kind = .Document ∨ ∃ l', asSection d = some l' ∧ l' < l

theorem asSection_kind {d : NodeType} {l : Nat} (h : asSection d = some l) : d.kind = .Section := by
  unfold asSection at h; split at h
  · rfl
  · cases h

theorem asSection_none {d : NodeType} (h : d.kind ≠ .Section) : asSection d = none := by
  cases e : asSection d with
  | none => rfl
  | some l => exact absurd (asSection_kind e) h

theorem sectionLocal_mono {d d' : NodeType} {vs : List (Option Nat × Kind)} (hk : d'.kind = d.kind)
    (hs : d.kind = .Section → d' = d) (h : SectionLocal d vs) : SectionLocal d' vs := by
  intro v hv
  refine ⟨(h v hv).1, fun l hl => ?_⟩
  rcases (h v hv).2 l hl with h1 | ⟨l', h1, h2⟩
  · exact .inl (hk.trans h1)
  · have := hs (asSection_kind h1)
    exact .inr ⟨l', by rw [this]; exact h1, h2⟩

theorem sectionView_tame {f : NodeType → NodeType} (hf : Tame f) (x : NodeType) : sectionView (f x) = sectionView x := by
  unfold sectionView
  rw [(hf x).1]
  by_cases h : x.kind = .Section
  · rw [(hf x).2 h]
  · rw [asSection_none h, asSection_none (by rw [(hf x).1]; exact h)]

theorem adds_tame {a a' b : NodeType} (h : Adds a a' b) : ∃ f, Tame f ∧ a' = f a := by
  cases h with
  | plain => exact ⟨fun x => x, fun x => ⟨rfl, fun _ => rfl⟩, rfl⟩
  | «section» => exact ⟨fun x => x, fun x => ⟨rfl, fun _ => rfl⟩, rfl⟩
  | question p => exact ⟨_, tame_addPoints p, rfl⟩
  | enumItem => exact ⟨_, tame_addItem, rfl⟩

theorem changes_tame {a a' : NodeType} (h : Changes a a') : ∃ f, Tame f ∧ a' = f a := by
  cases h with
  | answer s => exact ⟨_, tame_addAnswer s, rfl⟩
  | widths n => exact ⟨_, tame_setWidths n, rfl⟩

theorem sectionLocal_stable : Stable sectionView SectionLocal where
  fresh := fun _ _ _ _ v hv => by cases hv
  add := by
    intro a a' b vs hw h v hv
    obtain ⟨f, hf, he⟩ := adds_tame hw
    have hm : SectionLocal a' vs := by rw [he]; exact sectionLocal_mono (hf a).1 (hf a).2 h
    rcases List.mem_append.1 hv with hv | hv
    · exact hm v hv
    · simp only [List.mem_singleton] at hv
      subst hv
      cases hw
      case plain hk =>
        have hk' : b.kind ≠ .Document ∧ b.kind ≠ .Section := by
          rcases hk with hk | hk | hk
          · have := plainData_kind hk
            constructor <;> intro e <;> rw [e] at this <;> cases this
          · rw [hk]; simp
          · rw [hk]; simp
        refine ⟨hk'.1, fun l hl => ?_⟩
        simp only [sectionView, asSection_none hk'.2] at hl
        cases hl
      case «section» title level style hs =>
        refine ⟨by simp [sectionView, NodeType.kind], fun l hl => ?_⟩
        simp only [sectionView, asSection, Option.some.injEq] at hl
        subst hl
        exact hs
      case question p hq =>
        refine ⟨(by intro e; cases b <;> first | (cases hq; done) | cases e), fun l hl => ?_⟩
        simp only [sectionView] at hl
        cases b <;> first | (cases hq; done) | cases hl
      case enumItem hk =>
        refine ⟨by simp [sectionView, hk], fun l hl => ?_⟩
        simp only [sectionView] at hl
        have := asSection_kind hl
        rw [hk] at this; cases this
  viewAdd := by
    intro a a' b hw
    obtain ⟨f, hf, he⟩ := adds_tame hw
    rw [he]; exact sectionView_tame hf a
  change := by
    intro a a' vs hw h
    obtain ⟨f, hf, he⟩ := changes_tame hw
    rw [he]; exact sectionLocal_mono (hf a).1 (hf a).2 h
  viewChange := by
    intro a a' hw
    obtain ⟨f, hf, he⟩ := changes_tame hw
    rw [he]; exact sectionView_tame hf a

theorem parsed_sectionLocal {fuel : Nat} {stem folder : Str} {lines : List Str} {r : ParsingResult}
    (h : parseDocument fuel stem folder lines = .ok r) :
    ∃ t, IsDoc r.doc.tree t ∧ AllNodes (LocalOk sectionView SectionLocal) t := by
  refine local_looseSteps sectionLocal_stable ?_ (fun v hv => by cases hv) (parseDocument_loose h)
  intro a b vs hk hs
  have hs' : a.kind = .Section → b = a := fun e => hs (hk.trans e)
  refine ⟨sectionLocal_mono hk hs', ?_⟩
  unfold sectionView
  rw [hk]
  by_cases e : a.kind = .Section
  · rw [hs' e]
  · rw [asSection_none e, asSection_none (by rw [hk]; exact e)]

theorem sectionLocal_below {n m : TreeNode} {q : List Nat} (h : AllNodes (LocalOk sectionView SectionLocal) n)
    (hm : subtree? n q = some m) (hq : q ≠ []) {l : Nat} (hl : asSection m.data = some l) (hn : n.kind ≠ .Document) :
    ∃ l', asSection n.data = some l' ∧ l' < l := by
  induction q generalizing n with
  | nil => exact absurd rfl hq
  | cons i is ih =>
    simp only [subtree?] at hm
    cases hc : n.children with
    | none => simp [hc] at hm
    | some cs =>
      cases hi : cs[i]? with
      | none => simp [hc, hi] at hm
      | some c =>
        simp only [hc, hi, Option.bind_some] at hm
        have hloc := (AllNodes_iff _ n).1 h
        have hcm := List.mem_of_getElem? hi
        have h1 := hloc.1
        unfold LocalOk at h1
        rw [hc] at h1
        simp only [Option.getD_some] at h1
        obtain ⟨h2, h3⟩ := h1 (sectionView c.data) (List.mem_map.2 ⟨c, hcm, rfl⟩)
        have up : ∀ l'', asSection c.data = some l'' → ∃ l', asSection n.data = some l' ∧ l' < l'' := by
          intro l'' hl''
          rcases h3 l'' hl'' with h4 | h4
          · exact absurd h4 hn
          · exact h4
        by_cases his : is = []
        · subst his
          simp only [subtree?, Option.some.injEq] at hm
          subst hm
          exact up l hl
        · obtain ⟨l'', e1, e2⟩ := ih (hloc.2 cs hc c hcm) hm his h2
          obtain ⟨l', e3, e4⟩ := up l'' e1
          exact ⟨l', e3, by omega⟩

/-- **C21.** For every input, in the document of the parse: if a section lies anywhere inside another section, its level
is greater; and every section lies directly inside the document or inside another section. -/
theorem C21_sections_nest (fuel : Nat) (stem folder : Str) (lines : List Str) (r : ParsingResult)
    (h : parseDocument fuel stem folder lines = .ok r) :
    ∃ t, IsDoc r.doc.tree t ∧
      (∀ p q n m title level style title' level' style', subtree? t p = some n → subtree? t (p ++ q) = some m → q ≠ [] →
        n.data = .Section title level style → m.data = .Section title' level' style' → level < level') ∧
      (∀ p i n m title level style, subtree? t p = some n → subtree? t (p ++ [i]) = some m →
        m.data = .Section title level style →
        n.kind = .Document ∨ ∃ title' level' style', n.data = .Section title' level' style' ∧ level' < level) := by
  obtain ⟨t, h1, h2⟩ := parsed_sectionLocal h
  refine ⟨t, h1, ?_, ?_⟩
  · intro p q n m title level style title' level' style' hn hm hq en em
    rw [subtree?_append, hn] at hm
    obtain ⟨l', e1, e2⟩ := sectionLocal_below (AllNodes_subtree h2 hn) hm hq (l := level') (by rw [em]; rfl)
      (by unfold TreeNode.kind; rw [en]; simp [NodeType.kind])
    rw [en] at e1
    simp only [asSection, Option.some.injEq] at e1
    omega
  · intro p i n m title level style hn hm em
    rw [subtree?_append, hn] at hm
    by_cases hk : n.kind = .Document
    · exact .inl hk
    · obtain ⟨l', e1, e2⟩ := sectionLocal_below (AllNodes_subtree h2 hn) hm (by simp) (l := level) (by rw [em]; rfl) hk
      unfold asSection at e1
      split at e1
      · rename_i a b c hd
        simp only [Option.some.injEq] at e1
        subst e1
        exact .inr ⟨a, _, c, hd, e2⟩
      · cases e1

/-- Sections of three levels, the last one closing the second and the third. -/
example : outlineOf (parseDocument 30 (str! "doc") [] [str! "A", str! "=", str! "text", [], str! "B", str! "-", str! "C",
      str! "~", str! "D", str! "-"]) =
    some (true, [(0, .Document), (1, .Section), (2, .Paragraph), (3, .Text), (2, .Section), (3, .Section), (2, .Section)]) := by
  decide +kernel

end Rustla
