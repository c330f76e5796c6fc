import Verif.Lemmas.DocSteps
import Verif.Lemmas.Decimal
/-!
# C20, C22-C28: sections, labels and classes
-/
namespace Rustla
open Spec DocTree

/-! ## Association lists -/

theorem mapGet_insert {κ ν : Type} [DecidableEq κ] (m : List (κ × ν)) (k k' : κ) (v : ν) :
    mapGet (mapInsert m k v) k' = if k = k' then some v else mapGet m k' := by
  induction m with
  | nil => simp [mapInsert, mapGet]
  | cons a rest ih =>
    obtain ⟨ka, va⟩ := a
    simp only [mapInsert]
    by_cases h : ka = k
    · subst h
      rw [if_pos rfl]
      simp only [mapGet]
      split <;> rfl
    · simp only [if_neg h, mapGet, ih]
      by_cases h2 : ka = k'
      · subst h2; simp [Ne.symm h]
      · simp [h2]

theorem mapGet_none_of_not_mem {κ ν : Type} [DecidableEq κ] (m : List (κ × ν)) (k : κ) :
    mapGet m k ≠ none → k ∈ m.map (·.1) := by
  induction m with
  | nil => simp [mapGet]
  | cons a rest ih =>
    obtain ⟨ka, va⟩ := a
    simp only [mapGet, List.map_cons, List.mem_cons]
    split
    · rename_i h; intro _; exact Or.inl h.symm
    · intro h; exact Or.inr (ih h)

/-! ## C20 -/

/-- The title styles of a history, in the order in which they are met. -/
def titleStyles : List DocOp → List SectionLineStyle
  | [] => []
  | .section _ s :: ops => s :: titleStyles ops
  | .sectionAndFocus _ s :: ops => s :: titleStyles ops
  | _ :: ops => titleStyles ops

/-- The different elements of a list, in the order of their first appearance. -/
def firstSeen {α : Type} [DecidableEq α] (l : List α) : List α :=
  l.foldl (fun seen x => if x ∈ seen then seen else seen ++ [x]) []

/-- Section nodes are made by `new_section_data` only (as in the parser). -/
def NoRawSection : DocOp → Prop
  | .push data => data.kind ≠ .Section
  | .pushAndFocus data => data.kind ≠ .Section
  | .pushNode data => data.kind ≠ .Section
  | _ => True

theorem hyperref_sections (d : DocTree) (data : NodeType) (h : data.kind ≠ .Section) :
    (d.hyperrefActions data).2.2.sections = d.sections := by
  unfold hyperrefActions
  simp only
  split
  · simp
  · simp
  · rename_i kind _ _
    cases kind <;> simp
  · split
    · simp
    · split <;> simp
    · split <;> simp
    · split <;> simp
  · simp
  · simp
  · exact absurd rfl h
  · simp

theorem pushData_sections {d d' : DocTree} {data : NodeType} {b : Bool} (h : d.pushData data = .ok (b, d')) :
    d'.sections = (d.hyperrefActions data).2.2.sections := by
  unfold DocTree.pushData at h
  generalize hh : d.hyperrefActions data = ha at h
  obtain ⟨ls, data', d1⟩ := ha
  simp only [bind, Except.bind] at h
  split at h
  · simp at h
  · split at h <;> simp [pure, Except.pure] at h <;> obtain ⟨_, rfl⟩ := h
    · rfl
    · exact takeClasses_sections d1

theorem pushDataAndFocus_sections {d d' : DocTree} {data : NodeType} {b : Bool}
    (h : d.pushDataAndFocus data = .ok (b, d')) : d'.sections = (d.hyperrefActions data).2.2.sections := by
  unfold DocTree.pushDataAndFocus at h
  generalize hh : d.hyperrefActions data = ha at h
  obtain ⟨ls, data', d1⟩ := ha
  simp only [bind, Except.bind] at h
  split at h
  · simp at h
  · split at h <;> simp [pure, Except.pure] at h <;> obtain ⟨_, rfl⟩ := h
    · rfl
    · exact takeClasses_sections d1

theorem pushChild_sections {d d' : DocTree} {n : TreeNode} {b : Bool}
    (h : d.pushChild n = .ok (b, d')) : d'.sections = (d.hyperrefActions n.data).2.2.sections := by
  unfold DocTree.pushChild at h
  generalize hh : d.hyperrefActions n.data = ha at h
  obtain ⟨ls, data', d1⟩ := ha
  simp only [bind, Except.bind] at h
  split at h
  · simp at h
  · split at h <;> simp [pure, Except.pure] at h <;> obtain ⟨_, rfl⟩ := h <;> rfl

/-- The bookkeeping of section levels represents the list of styles seen so far. -/
def SectionInv (s : SectionData) (seen : List SectionLineStyle) : Prop :=
  s.highest = seen.length ∧ seen.Nodup ∧
  ∀ st, mapGet s.levels st = if st ∈ seen then some (seen.idxOf st + 1) else none

theorem sectionInv_level {s : SectionData} {seen : List SectionLineStyle} (h : SectionInv s seen)
    (st : SectionLineStyle) : s.levelOf st = seen.idxOf st + 1 := by
  obtain ⟨h1, _, h3⟩ := h
  unfold SectionData.levelOf
  rw [h3, h1]
  split
  · rfl
  · rename_i hn; simp [List.idxOf_eq_length hn]

theorem sectionInv_add {d : DocTree} {seen : List SectionLineStyle} (h : SectionInv d.sections seen) (title : Str)
    (st : SectionLineStyle) :
    SectionInv (d.hyperrefActions (d.newSectionData title st)).2.2.sections
      (if st ∈ seen then seen else seen ++ [st]) := by
  have hl := sectionInv_level h st
  obtain ⟨h1, h2, h3⟩ := h
  simp only [newSectionData, hl, hyperrefActions, addTargets_sections, takeLabels_sections, SectionData.addLevel,
    h3]
  by_cases hm : st ∈ seen
  · simp only [if_pos hm]
    have : seen.idxOf st < seen.length := List.idxOf_lt_length_of_mem hm
    rw [if_neg (by omega)]
    exact ⟨h1, h2, h3⟩
  · simp only [if_neg hm, List.idxOf_eq_length hm]
    rw [if_pos (by omega)]
    refine ⟨by simp [h1], ?_, ?_⟩
    · rw [List.nodup_append]
      refine ⟨h2, by simp, ?_⟩
      intro a ha b hb e
      simp at hb
      subst hb e
      exact hm ha
    · intro s'
      rw [mapGet_insert, h3, h1]
      by_cases e : st = s'
      · subst e
        simp [List.idxOf_append, hm]
      · simp only [if_neg e, List.mem_append, List.mem_singleton, Ne.symm e, or_false]
        split
        · rename_i hs'
          simp [List.idxOf_append, hs']
        · rfl

theorem run_sections {d d' : DocTree} {op : DocOp} {seen : List SectionLineStyle} (hn : NoRawSection op)
    (hi : SectionInv d.sections seen) (h : op.run d = .ok d') :
    SectionInv d'.sections ((titleStyles [op]).foldl (fun seen x => if x ∈ seen then seen else seen ++ [x]) seen) := by
  have unpair : ∀ {α : Type} {m : Run (α × DocTree)}, (do pure (← m).2 : Run DocTree) = .ok d' →
      ∃ b, m = .ok (b, d') := by
    intro α m hm
    cases m with
    | error e => simp [bind, Except.bind] at hm
    | ok x => obtain ⟨b, y⟩ := x; simp [bind, Except.bind, pure, Except.pure] at hm; subst hm; exact ⟨b, rfl⟩
  have same : d'.sections = d.sections → SectionInv d'.sections seen := fun e => by rw [e]; exact hi
  cases op with
  | push data => obtain ⟨b, hb⟩ := unpair h; exact same (by rw [pushData_sections hb, hyperref_sections _ _ hn])
  | pushAndFocus data =>
    obtain ⟨b, hb⟩ := unpair h; exact same (by rw [pushDataAndFocus_sections hb, hyperref_sections _ _ hn])
  | pushNode data => obtain ⟨b, hb⟩ := unpair h; exact same (by rw [pushChild_sections hb]; exact hyperref_sections d data hn)
  | pop =>
    refine same ?_
    simp only [DocOp.run, pure, Except.pure, Except.ok.injEq] at h; subst h
    unfold DocTree.popChild; split <;> rfl
  | parent =>
    refine same ?_
    simp only [DocOp.run, DocTree.focusOnParent, bind, Except.bind] at h
    split at h
    · simp at h
    · simp [pure, Except.pure] at h; subst h; rfl
  | root =>
    refine same ?_
    simp only [DocOp.run, DocTree.walkToRoot, bind, Except.bind] at h
    split at h
    · simp at h
    · simp [pure, Except.pure] at h; subst h; rfl
  | findId id =>
    refine same ?_
    simp only [DocOp.run, DocTree.walkToId, bind, Except.bind] at h
    split at h
    · simp at h
    · split at h
      · simp at h
      · split at h
        · simp at h
        · simp [pure, Except.pure] at h; subst h; rfl
  | toSection level =>
    refine same ?_
    simp only [DocOp.run, DocTree.walkToParentSectionLevel, bind, Except.bind] at h
    split at h
    · simp at h
    · simp [pure, Except.pure] at h; subst h; rfl
  | «section» title style =>
    obtain ⟨b, hb⟩ := unpair h
    rw [pushData_sections hb]
    exact sectionInv_add hi title style
  | sectionAndFocus title style =>
    obtain ⟨b, hb⟩ := unpair h
    rw [pushDataAndFocus_sections hb]
    exact sectionInv_add hi title style
  | internalTarget l => simp only [DocOp.run, pure, Except.pure, Except.ok.injEq] at h; subst h; exact same rfl
  | anonTarget => simp only [DocOp.run, pure, Except.pure, Except.ok.injEq] at h; subst h; exact same rfl
  | anonReference => simp only [DocOp.run, pure, Except.pure, Except.ok.injEq] at h; subst h; exact same rfl
  | addClass c => simp only [DocOp.run, pure, Except.pure, Except.ok.injEq] at h; subst h; exact same rfl
  | setFields data =>
    refine same ?_
    simp only [DocOp.run] at h
    split at h <;> simp only [pure, Except.pure, Except.ok.injEq] at h <;> subst h <;> rfl

theorem titleStyles_cons (op : DocOp) (ops : List DocOp) : titleStyles (op :: ops) = titleStyles [op] ++ titleStyles ops := by
  cases op <;> simp [titleStyles]

theorem runAll_sections {ops : List DocOp} {d d' : DocTree} {seen : List SectionLineStyle}
    (hn : ∀ op ∈ ops, NoRawSection op)
    (hi : SectionInv d.sections seen) (h : DocOp.runAll d ops = .ok d') :
    SectionInv d'.sections ((titleStyles ops).foldl (fun seen x => if x ∈ seen then seen else seen ++ [x]) seen) := by
  induction ops generalizing d seen with
  | nil => simp [DocOp.runAll, pure, Except.pure] at h; subst h; exact hi
  | cons op ops ih =>
    simp only [DocOp.runAll] at h
    cases ho : op.run d with
    | error e => simp [ho, bind, Except.bind] at h
    | ok d1 =>
      simp only [ho, bind, Except.bind] at h
      rw [titleStyles_cons, List.foldl_append]
      exact ih (fun o ho => hn o (by simp [ho])) (run_sections (hn op (by simp)) hi ho) h

theorem sectionInv_new : SectionInv {} [] := ⟨rfl, by simp, by simp [mapGet]⟩

/-- **C20.** After any history of document-building operations a title of any style is given the level
"position of the style in the order of first appearance, counted from one"; a style that has not been met yet gets the
next free level. -/
theorem C20_section_levels (stem folder : Str) (ops : List DocOp) (d : DocTree) (hn : ∀ op ∈ ops, NoRawSection op)
    (h : DocOp.runAll (DocTree.new stem folder) ops = .ok d) (title : Str) (style : SectionLineStyle) :
    d.newSectionData title style =
      .Section title ((firstSeen (titleStyles ops)).idxOf style + 1) style := by
  have hi := runAll_sections hn sectionInv_new h
  simp only [newSectionData]
  rw [sectionInv_level hi]
  rfl

/-- **C20, bijection.** After any history, the levels of the styles met so far are exactly `1, …, k` where `k` is the
number of different styles, different styles have different levels, and a style that is new gets `k + 1`. -/
theorem C20_bijection (stem folder : Str) (ops : List DocOp) (d : DocTree) (hn : ∀ op ∈ ops, NoRawSection op)
    (h : DocOp.runAll (DocTree.new stem folder) ops = .ok d) :
    let level := fun style => d.sections.levelOf style
    let k := (firstSeen (titleStyles ops)).length
    (∀ s ∈ titleStyles ops, 1 ≤ level s ∧ level s ≤ k) ∧
    (∀ s ∈ titleStyles ops, ∀ s' ∈ titleStyles ops, level s = level s' → s = s') ∧
    (∀ l, 1 ≤ l → l ≤ k → ∃ s ∈ titleStyles ops, level s = l) ∧
    (∀ s, s ∉ titleStyles ops → level s = k + 1) := by
  have hi := runAll_sections hn sectionInv_new h
  have hm : ∀ (l seen : List SectionLineStyle) (s : SectionLineStyle),
      s ∈ l.foldl (fun seen x => if x ∈ seen then seen else seen ++ [x]) seen ↔ s ∈ seen ∨ s ∈ l := by
    intro l
    induction l with
    | nil => simp
    | cons x xs ih =>
      intro seen s
      simp only [List.foldl_cons, ih, List.mem_cons]
      split
      · rename_i hx
        constructor
        · rintro (h | h) <;> simp [h]
        · rintro (h | rfl | h)
          · simp [h]
          · simp [hx]
          · simp [h]
      · simp [or_assoc]
  have hm' : ∀ s, s ∈ firstSeen (titleStyles ops) ↔ s ∈ titleStyles ops := by
    intro s; unfold firstSeen; rw [hm]; simp
  have hl : ∀ s, d.sections.levelOf s = (firstSeen (titleStyles ops)).idxOf s + 1 := sectionInv_level hi
  refine ⟨?_, ?_, ?_, ?_⟩
  · intro s hs
    have := List.idxOf_lt_length_of_mem ((hm' s).2 hs)
    simp only [hl]; omega
  · intro s hs s' hs' he
    simp only [hl] at he
    have h1 := List.getElem_idxOf (List.idxOf_lt_length_of_mem ((hm' s).2 hs))
    have h2 := List.getElem_idxOf (List.idxOf_lt_length_of_mem ((hm' s').2 hs'))
    rw [← h1, ← h2]
    congr 1; omega
  · intro l h1 h2
    refine ⟨(firstSeen (titleStyles ops))[l - 1]'(by omega), (hm' _).1 (List.getElem_mem _), ?_⟩
    simp only [hl]
    have hnd : (firstSeen (titleStyles ops)).Nodup := hi.2.1
    rw [List.Nodup.idxOf_getElem hnd]
    omega
  · intro s hs
    simp only [hl]
    rw [List.idxOf_eq_length (fun hc => hs ((hm' s).1 hc))]

example : titleStyles [.section (str! "a") (.Under '='), .push .EmptyLine, .section (str! "b") (.Under '-'),
    .sectionAndFocus (str! "c") (.Under '='), .section (str! "d") (.OverAndUnder '=')] =
    [.Under '=', .Under '-', .Under '=', .OverAndUnder '='] := by decide +kernel
example : (match DocOp.runAll (DocTree.new [] []) [.section (str! "a") (.Under '='), .push .EmptyLine,
      .section (str! "b") (.Under '-'), .sectionAndFocus (str! "c") (.Under '='), .section (str! "d") (.OverAndUnder '=')] with
    | .ok d => [d.sections.levelOf (.Under '='), d.sections.levelOf (.Under '-'), d.sections.levelOf (.OverAndUnder '='),
        d.sections.levelOf (.Under '~')]
    | .error _ => []) = [1, 2, 3, 4] := by decide +kernel

/-! ## C22 -/

theorem firstFree_some {used : Str → Bool} {fuel n : Nat} {l : Str} (h : firstFree used fuel n = some l) :
    ∃ m, n ≤ m ∧ l = decimal m ∧ used (decimal m) = false ∧ ∀ k, n ≤ k → k < m → used (decimal k) = true := by
  induction fuel generalizing n with
  | zero => simp [firstFree] at h
  | succ f ih =>
    simp only [firstFree] at h
    split at h
    · rename_i hu
      obtain ⟨m, h1, h2, h3, h4⟩ := ih h
      refine ⟨m, by omega, h2, h3, ?_⟩
      intro k hk1 hk2
      by_cases e : k = n
      · subst e; exact hu
      · exact h4 k (by omega) hk2
    · rename_i hu
      simp only [Option.some.injEq] at h
      exact ⟨n, Nat.le_refl _, h.symm, by simpa using hu, fun k h1 h2 => by omega⟩

theorem firstFree_none {used : Str → Bool} {fuel n : Nat} (h : firstFree used fuel n = none) :
    ∀ k, n ≤ k → k < n + fuel → used (decimal k) = true := by
  induction fuel generalizing n with
  | zero => intro k h1 h2; omega
  | succ f ih =>
    simp only [firstFree] at h
    split at h
    · rename_i hu
      intro k h1 h2
      by_cases e : k = n
      · subst e; exact hu
      · exact ih h k (by omega) (by omega)
    · simp at h

/-- Among `length + 1` numerals one is not a key of an association list. -/
theorem firstFree_exists {ν : Type} (m : List (Str × ν)) :
    ∃ l, firstFree (mapHas m) (m.length + 1) 1 = some l := by
  cases h : firstFree (mapHas m) (m.length + 1) 1 with
  | some l => exact ⟨l, rfl⟩
  | none =>
    exfalso
    have hall := firstFree_none h
    have hnd : ((List.range' 1 (m.length + 1)).map decimal).Nodup := by
      have hr := List.nodup_range' (s := 1) (n := m.length + 1) (step := 1)
      unfold List.Nodup at *
      rw [List.pairwise_map]
      exact hr.imp fun hne he => hne (decimal_injective he)
    have hsub : ∀ x ∈ (List.range' 1 (m.length + 1)).map decimal, x ∈ m.map (·.1) := by
      intro x hx
      simp only [List.mem_map, List.mem_range'_1] at hx
      obtain ⟨k, hk, rfl⟩ := hx
      have := hall k hk.1 (by omega)
      refine mapGet_none_of_not_mem m _ ?_
      unfold mapHas at this
      intro hc
      rw [hc] at this
      simp at this
    have hlen : ∀ (a b : List Str), a.Nodup → (∀ x ∈ a, x ∈ b) → a.length ≤ b.length := by
      intro a
      induction a with
      | nil => simp
      | cons x xs ih =>
        intro b hnd hs
        rw [List.nodup_cons] at hnd
        have hx := hs x (by simp)
        have := ih (b.erase x) hnd.2 (fun y hy => by
          rw [List.mem_erase_of_ne]
          · exact hs y (by simp [hy])
          · rintro rfl; exact hnd.1 hy)
        rw [List.length_erase_of_mem hx] at this
        have hb : 0 < b.length := List.length_pos_of_mem hx
        simp only [List.length_cons]
        omega
    have := hlen _ _ hnd hsub
    simp only [List.length_map, List.length_range'] at this
    omega

/-- **C22.** The label of a new auto-numbered footnote is the decimal numeral of the least positive number whose
numeral is not yet a target label.  This part of the property holds for every document. -/
theorem C22_least_free_partial (d : DocTree) :
    ∃ n, d.newAutonumberFootnoteLabel = some (decimal n) ∧ 1 ≤ n ∧
      mapGet d.hyperref.targets (decimal n) = none ∧
      ∀ k, 1 ≤ k → k < n → mapGet d.hyperref.targets (decimal k) ≠ none := by
  obtain ⟨l, hl⟩ := firstFree_exists d.hyperref.targets
  have hs := firstFree_some (used := mapHas d.hyperref.targets) hl
  obtain ⟨n, h1, h2, h3, h4⟩ := hs
  refine ⟨n, ?_, h1, ?_, ?_⟩
  · rw [← h2]; exact hl
  · simpa [mapHas] using h3
  · intro k hk1 hk2 hc
    have := h4 k hk1 hk2
    simp [mapHas, hc] at this

theorem addTargets_get (d : DocTree) (ls : List Str) (l : Str) :
    mapGet (d.addTargets ls).hyperref.targets l = if l ∈ ls then some d.nodeCount else mapGet d.hyperref.targets l := by
  unfold addTargets
  induction ls generalizing d with
  | nil => simp
  | cons x xs ih =>
    rw [List.foldl_cons, ih]
    simp only [addTarget_nodeCount, List.mem_cons]
    by_cases h : l ∈ xs
    · simp [h]
    · simp only [h, or_false, if_false]
      show mapGet (mapInsert d.hyperref.targets x d.nodeCount) l = _
      rw [mapGet_insert]
      by_cases e : x = l
      · simp [e]
      · simp [e, Ne.symm e]

/-- **C22, node.** An auto-numbered footnote gets the least free number as its label and the number is a target label
of the footnote afterwards; hence two auto-numbered footnotes never get the same number, and neither does an
auto-numbered footnote after a manually numbered one. -/
theorem C22_footnote_node_partial (d : DocTree) (bi : Nat) (label target : Str) :
    ∃ n, (d.hyperrefActions (.Footnote bi .AutoNumbered label target)).2.1 = .Footnote bi .AutoNumbered (decimal n) (decimal n) ∧
      1 ≤ n ∧ mapGet d.hyperref.targets (decimal n) = none ∧
      (∀ k, 1 ≤ k → k < n → mapGet d.hyperref.targets (decimal k) ≠ none) ∧
      mapGet (d.hyperrefActions (.Footnote bi .AutoNumbered label target)).2.2.hyperref.targets (decimal n) =
        some d.nodeCount := by
  obtain ⟨n, h1, h2, h3, h4⟩ := C22_least_free_partial { d with hyperref := { d.hyperref with accumulated := [] } }
  refine ⟨n, ?_, h2, h3, h4, ?_⟩
  · simp [hyperrefActions, takeLabels, h1]
  · simp [hyperrefActions, takeLabels, h1, addTargets_get]

/-- **Finding.** A footnote with a name, `[#name]`, gets the least free number, too, but it is not named by its name: whatever its label and
target are when it is added, both are replaced by the number, and the number is the only new target label (besides those of the hyperlink targets
in front of it). -/
theorem C22_name_lost (d : DocTree) (bi : Nat) (label target : Str) :
    ∃ n, (d.hyperrefActions (.Footnote bi .SimpleRefName label target)).2.1 = .Footnote bi .SimpleRefName (decimal n) (decimal n) ∧
      1 ≤ n ∧ mapGet d.hyperref.targets (decimal n) = none ∧
      (∀ k, 1 ≤ k → k < n → mapGet d.hyperref.targets (decimal k) ≠ none) ∧
      ∀ l, mapGet (d.hyperrefActions (.Footnote bi .SimpleRefName label target)).2.2.hyperref.targets l =
        if l ∈ d.hyperref.accumulated ++ [decimal n] then some d.nodeCount else mapGet d.hyperref.targets l := by
  obtain ⟨n, h1, h2, h3, h4⟩ := C22_least_free_partial { d with hyperref := { d.hyperref with accumulated := [] } }
  refine ⟨n, ?_, h2, h3, h4, ?_⟩
  · simp [hyperrefActions, takeLabels, h1]
  · intro l
    simp [hyperrefActions, takeLabels, h1, addTargets_get]

/-- **C22 fails in one order.** If a manually numbered footnote follows an auto-numbered one, both can have the same
label: `[#]` followed by `[1]` gives two footnotes with the target label `1`. -/
theorem C22_manual_after_auto_collides :
    (match DocOp.runAll (DocTree.new [] []) [.push (.Footnote 4 .AutoNumbered [] []),
        .push (.Footnote 4 .Manual (str! "1") (str! "1"))] with
      | .ok d => (d.tree.node.children.getD []).map TreeNode.refnames
      | .error _ => []) = [some [str! "1"], some [str! "1"]] := by decide +kernel

example : (match DocOp.runAll (DocTree.new [] []) [.push (.Footnote 4 .Manual (str! "1") (str! "1")),
        .push (.Footnote 4 .Manual (str! "2") (str! "2")), .push (.Footnote 4 .Manual (str! "4") (str! "4"))] with
      | .ok d => d.newAutonumberFootnoteLabel
      | .error _ => none) = some (str! "3") := by decide +kernel

/-! ## C23 -/

/-- **C23.** There is a symbolic label for every footnote counter; it consists of one symbol, repeated; different
counters give different labels. -/
theorem C23_symbolic_labels (n : Nat) :
    (∃ c k, c ∈ footnoteSymbols ∧ 0 < k ∧ symbolLabel n = some (List.replicate k c)) ∧
    ∀ m, symbolLabel m = symbolLabel n → m = n := by
  have hk : footnoteSymbols.length = 10 := rfl
  have hs : ∀ n, ∃ h : n % 10 < footnoteSymbols.length,
      symbolLabel n = some (List.replicate (n / 10 + 1) (footnoteSymbols[n % 10]'h)) := by
    intro n
    have h : n % 10 < footnoteSymbols.length := by rw [hk]; omega
    refine ⟨h, ?_⟩
    simp only [symbolLabel, hk]
    rw [List.getElem?_eq_getElem h]
  refine ⟨?_, ?_⟩
  · obtain ⟨h, e⟩ := hs n
    exact ⟨_, _, List.getElem_mem h, by omega, e⟩
  · intro m he
    obtain ⟨h1, e1⟩ := hs m
    obtain ⟨h2, e2⟩ := hs n
    rw [e1, e2] at he
    simp only [Option.some.injEq] at he
    have hl := congrArg List.length he
    simp only [List.length_replicate] at hl
    have hh := congrArg List.head? he
    simp only [List.replicate_succ, List.head?_cons, Option.some.injEq] at hh
    have hnd : footnoteSymbols.Nodup := by decide
    have i1 := List.Nodup.idxOf_getElem hnd (m % 10) h1
    have i2 := List.Nodup.idxOf_getElem hnd (n % 10) h2
    rw [hh] at i1
    omega

example : symbolLabel 0 = some (str! "*") ∧ symbolLabel 9 = some (str! "♣") ∧ symbolLabel 21 = some (str! "†††") := by
  decide +kernel

/-! ## C24 -/

/-- What happens to auto-symbol footnotes while a document is read: footnotes and references, in some order. -/
inductive SymEvent where
  | footnote
  | reference

/-- The labels given by `hyperref_actions` to a sequence of auto-symbol footnotes and references (each paired with the
event). -/
def symLabels : DocTree → List SymEvent → List (SymEvent × Option (List Str))
  | _, [] => []
  | d, .footnote :: es =>
    let r := d.hyperrefActions (.Footnote 4 .AutoSymbol [] [])
    (.footnote, r.1) :: symLabels r.2.2 es
  | d, .reference :: es =>
    let r := d.hyperrefActions (.FootnoteReference [] [] .AutoSymbol)
    (.reference, r.1) :: symLabels r.2.2 es

/-- The labels of the footnotes of a run, first to last. -/
def footnoteLabels (l : List (SymEvent × Option (List Str))) : List (Option (List Str)) :=
  (l.filter fun e => match e.1 with | .footnote => true | .reference => false).map (·.2)
/-- The labels of the references of a run, first to last. -/
def referenceLabels (l : List (SymEvent × Option (List Str))) : List (Option (List Str)) :=
  (l.filter fun e => match e.1 with | .footnote => false | .reference => true).map (·.2)

/-- **C24 is violated.** Two references followed by their two footnotes: both references get the label of the first
footnote. -/
theorem C24_violated :
    referenceLabels (symLabels (DocTree.new [] []) [.reference, .reference, .footnote, .footnote]) =
      [some [str! "*"], some [str! "*"]] ∧
    footnoteLabels (symLabels (DocTree.new [] []) [.reference, .reference, .footnote, .footnote]) =
      [some [str! "*"], some [str! "†"]] := by decide +kernel

/-- Each reference stands directly between the footnote before and its own footnote: `r f r f …`. -/
def alternating : Nat → List SymEvent
  | 0 => []
  | n + 1 => .reference :: .footnote :: alternating n

theorem addReferences_sym (d : DocTree) (ls : List Str) :
    (d.addReferences ls).hyperref.nSymFootnotes = d.hyperref.nSymFootnotes ∧
    (d.addReferences ls).hyperref.accumulated = d.hyperref.accumulated := by
  unfold addReferences
  induction ls generalizing d with
  | nil => simp
  | cons l ls ih => simp only [List.foldl_cons]; exact ih (d.addReference l d.nodeCount)

theorem addTargets_sym (d : DocTree) (ls : List Str) :
    (d.addTargets ls).hyperref.nSymFootnotes = d.hyperref.nSymFootnotes ∧
    (d.addTargets ls).hyperref.accumulated = d.hyperref.accumulated := by
  unfold addTargets
  induction ls generalizing d with
  | nil => simp
  | cons l ls ih => simp only [List.foldl_cons]; exact ih (d.addTarget l d.nodeCount)

theorem symFootnote (d : DocTree) (h : d.hyperref.accumulated = []) :
    (d.hyperrefActions (.Footnote 4 .AutoSymbol [] [])).1 = (symbolLabel d.hyperref.nSymFootnotes).map ([·]) ∧
    (d.hyperrefActions (.Footnote 4 .AutoSymbol [] [])).2.2.hyperref.nSymFootnotes = d.hyperref.nSymFootnotes + 1 ∧
    (d.hyperrefActions (.Footnote 4 .AutoSymbol [] [])).2.2.hyperref.accumulated = [] := by
  obtain ⟨⟨c, k, _, _, e⟩, _⟩ := C23_symbolic_labels d.hyperref.nSymFootnotes
  simp only [hyperrefActions, takeLabels, h, newSymbolicFootnoteLabel, e]
  refine ⟨by simp, ?_, ?_⟩
  · simp [incrementSymbolicFootnotes, addTargets_sym]
  · simp [incrementSymbolicFootnotes, addTargets_sym]

theorem symReference (d : DocTree) (h : d.hyperref.accumulated = []) :
    (d.hyperrefActions (.FootnoteReference [] [] .AutoSymbol)).1 = (symbolLabel d.hyperref.nSymFootnotes).map ([·]) ∧
    (d.hyperrefActions (.FootnoteReference [] [] .AutoSymbol)).2.2.hyperref.nSymFootnotes = d.hyperref.nSymFootnotes ∧
    (d.hyperrefActions (.FootnoteReference [] [] .AutoSymbol)).2.2.hyperref.accumulated = [] := by
  obtain ⟨⟨c, k, _, _, e⟩, _⟩ := C23_symbolic_labels d.hyperref.nSymFootnotes
  simp only [hyperrefActions, takeLabels, h, newSymbolicFootnoteLabel, e]
  refine ⟨by simp, ?_, ?_⟩
  · simp [addReferences_sym]
  · simp [addReferences_sym]

/-- **C24, exact behaviour.** In every interleaving the label of a footnote is the symbol of its own number, and the
label of a reference is the symbol of the number of footnotes *before* it (so it always refers to the next footnote). -/
theorem C24_labels (d : DocTree) (ha : d.hyperref.accumulated = []) (es : List SymEvent) (i : Nat) (h : i < es.length) :
    ((symLabels d es)[i]?).map (·.2) =
      some ((symbolLabel (d.hyperref.nSymFootnotes +
        ((es.take i).filter fun e => match e with | .footnote => true | .reference => false).length)).map ([·])) := by
  induction es generalizing d i with
  | nil => simp at h
  | cons e es ih =>
    cases e with
    | footnote =>
      obtain ⟨h1, h2, h3⟩ := symFootnote d ha
      cases i with
      | zero => simp [symLabels, h1]
      | succ i =>
        simp only [symLabels, List.getElem?_cons_succ]
        rw [ih _ h3 i (by simpa using h), h2]
        simp only [List.take_succ_cons, List.filter_cons]
        simp only [if_true, List.length_cons]
        congr 3; omega
    | reference =>
      obtain ⟨h1, h2, h3⟩ := symReference d ha
      cases i with
      | zero => simp [symLabels, h1]
      | succ i =>
        simp only [symLabels, List.getElem?_cons_succ]
        rw [ih _ h3 i (by simpa using h), h2]
        simp

theorem symLabels_alternating (d : DocTree) (ha : d.hyperref.accumulated = []) (n : Nat) :
    referenceLabels (symLabels d (alternating n)) = footnoteLabels (symLabels d (alternating n)) := by
  induction n generalizing d with
  | zero => rfl
  | succ n ih =>
    obtain ⟨h1, h2, h3⟩ := symReference d ha
    obtain ⟨k1, k2, k3⟩ := symFootnote _ h3
    simp only [alternating, symLabels, referenceLabels, footnoteLabels, List.filter_cons]
    simp only [Bool.false_eq_true, if_true, if_false, List.map_cons]
    rw [h1, k1, h2]
    congr 1
    exact ih _ k3

/-- **C24, partial.** When every footnote directly follows its reference, the k-th reference has the label of the k-th
footnote.  Missing: all other interleavings, where the code violates the property (`C24_violated`). -/
theorem C24_alternating_partial (stem folder : Str) (n : Nat) :
    referenceLabels (symLabels (DocTree.new stem folder) (alternating n)) =
      footnoteLabels (symLabels (DocTree.new stem folder) (alternating n)) :=
  symLabels_alternating _ rfl n

/-! ## C25 -/

/-- Anonymous targets and references met by the parser. -/
inductive AnonEvent where
  | target
  | reference

/-- The labels given to anonymous targets and to anonymous references, each first to last. -/
def anonLabels : DocTree → List AnonEvent → List Str × List Str
  | _, [] => ([], [])
  | d, .target :: es =>
    let r := d.nextAnonTargetLabel
    let rest := anonLabels r.2 es
    (r.1 :: rest.1, rest.2)
  | d, .reference :: es =>
    let r := d.nextAnonReferenceLabel
    let rest := anonLabels r.2 es
    (rest.1, r.1 :: rest.2)

theorem anonLabels_eq (d : DocTree) (es : List AnonEvent) :
    ∃ a b, anonLabels d es = ((List.range' (d.hyperref.nAnonTargets + 1) a).map anonLabel,
      (List.range' (d.hyperref.nAnonReferences + 1) b).map anonLabel) := by
  induction es generalizing d with
  | nil => exact ⟨0, 0, rfl⟩
  | cons e es ih =>
    cases e with
    | target =>
      obtain ⟨a, b, h⟩ := ih d.nextAnonTargetLabel.2
      exact ⟨a + 1, b, by simp only [anonLabels, h]; simp [nextAnonTargetLabel, List.range'_succ]⟩
    | reference =>
      obtain ⟨a, b, h⟩ := ih d.nextAnonReferenceLabel.2
      exact ⟨a, b + 1, by simp only [anonLabels, h]; simp [nextAnonReferenceLabel, List.range'_succ]⟩

theorem anonLabel_injective {m n : Nat} (h : anonLabel m = anonLabel n) : m = n := by
  unfold anonLabel at h
  have h1 := List.append_cancel_right h
  exact decimal_injective (List.append_cancel_left h1)

/-- **C25.** For every interleaving of anonymous targets and references (as calls of the document's label functions),
the k-th reference gets the label of the k-th target, and different targets get different labels. -/
theorem C25_anonymous_pairing_partial (stem folder : Str) (es : List AnonEvent) (k : Nat) (r t : Str) :
    let ls := anonLabels (DocTree.new stem folder) es
    (ls.2[k]? = some r → ls.1[k]? = some t → r = t) ∧ ls.1.Nodup := by
  obtain ⟨a, b, h⟩ := anonLabels_eq (DocTree.new stem folder) es
  simp only [h]
  refine ⟨?_, ?_⟩
  · simp only [List.getElem?_map, Option.map_eq_some_iff]
    rintro ⟨x, hx, rfl⟩ ⟨y, hy, rfl⟩
    obtain ⟨h1, rfl⟩ := List.getElem?_eq_some_iff.1 hx
    obtain ⟨h2, rfl⟩ := List.getElem?_eq_some_iff.1 hy
    simp [DocTree.new]
  · have hr := List.nodup_range' (s := (DocTree.new stem folder).hyperref.nAnonTargets + 1) (n := a) (step := 1)
    unfold List.Nodup at *
    rw [List.pairwise_map]
    exact hr.imp fun hne he => hne (anonLabel_injective he)

example : anonLabels (DocTree.new [] []) [.reference, .target, .reference, .target] =
    ([str! "[[-ANON-LABEL-1-]]", str! "[[-ANON-LABEL-2-]]"], [str! "[[-ANON-LABEL-1-]]", str! "[[-ANON-LABEL-2-]]"]) := by
  decide +kernel

end Rustla
