import Verif.Lemmas.Forward
import Verif.Lemmas.IndentedLines
import Verif.Props.Markup
/-! # Parsing a paragraph of plain lines -/
namespace Rustla
open Spec

/-! ## Shapes -/

theorem shapesOf_append (a b : List TreeNode) : shapesOf (a ++ b) = shapesOf a ++ shapesOf b := by
  induction a with
  | nil => rfl
  | cons t ts ih => simp [shapesOf, ih]

theorem shapesOf_eq_map (a : List TreeNode) : shapesOf a = a.map shapeOf := by
  induction a with
  | nil => rfl
  | cons t ts ih => simp [shapesOf, ih]

theorem shapeOf_new (data : NodeType) (id : Nat) (ls cl : Option (List Str)) :
    shapeOf (TreeNode.new data id ls cl) = .labelled data (ls.getD []) [] := by
  unfold TreeNode.new
  split <;> simp [shapeOf, shapesOf]

theorem shapeOf_children {t : TreeNode} {cs : List TreeNode} (h : t.children = some cs) :
    shapeOf t = .labelled t.data (t.refnames.getD []) (shapesOf cs) := by
  cases t with
  | mk a b c d e => simp only [TreeNode.children] at h; subst h; simp [shapeOf, TreeNode.data, TreeNode.refnames]

/-! ## Node kinds that are pushed as they are -/

/-- Nodes that define no labels of their own: the node is pushed as it is and the section levels stay. -/
def Simple (k : Kind) : Prop := k ≠ .Footnote ∧ k ≠ .FootnoteReference ∧ k ≠ .Section ∧ k ≠ .Citation ∧ k ≠ .ExternalHyperlinkTarget

theorem addTarget_notes (d : DocTree) (l : Str) (i : Nat) : (d.addTarget l i).notes = d.notes := by
  unfold DocTree.addTarget; rfl

theorem addReference_notes (d : DocTree) (l : Str) (i : Nat) : (d.addReference l i).notes = d.notes := by
  unfold DocTree.addReference; rfl

theorem addTargets_notes (d : DocTree) (ls : List Str) : (d.addTargets ls).notes = d.notes := by
  unfold DocTree.addTargets
  induction ls generalizing d with
  | nil => rfl
  | cons l ls ih => rw [List.foldl_cons, ih, addTarget_notes]

theorem takeLabels_none {d : DocTree} (data : NodeType) (h : d.hyperref.accumulated = []) : d.takeLabels data = ([], d) := by
  have : { d with hyperref := { d.hyperref with accumulated := [] } } = d := by rw [← h]
  unfold DocTree.takeLabels
  split
  · rfl
  · rfl
  · rw [this, h]

theorem hyperref_notes (d : DocTree) (data : NodeType) (h : Simple data.kind) (hq : d.hyperref.accumulated = []) :
    (d.hyperrefActions data).2.2.notes = d.notes ∧ (d.hyperrefActions data).1 = none := by
  unfold DocTree.hyperrefActions
  simp only [takeLabels_none data hq]
  split
  · exact absurd rfl h.2.2.2.1
  · exact ⟨addReference_notes .., rfl⟩
  · exact absurd rfl h.1
  · exact absurd rfl h.2.1
  · exact absurd rfl h.2.2.2.2
  · exact ⟨(addReference_notes ..).trans (addTargets_notes ..), rfl⟩
  · exact absurd rfl h.2.2.1
  · exact ⟨addTargets_notes .., rfl⟩

/-- The labels of the targets before a node are given to it. -/
theorem hyperref_takes (d : DocTree) (data : NodeType) (h : Simple data.kind) (h1 : data.kind ≠ .EmptyLine) (h2 : data.kind ≠ .WhiteSpace) :
    (d.hyperrefActions data).2.2.notes = (d.notes.1, []) ∧ (d.hyperrefActions data).1.getD [] = d.hyperref.accumulated := by
  have hw : ∀ ls : List Str, (if ls.isEmpty then none else some ls).getD [] = ls := by
    intro ls; cases ls <;> rfl
  have ht : d.takeLabels data = (d.hyperref.accumulated, { d with hyperref := { d.hyperref with accumulated := [] } }) := by
    unfold DocTree.takeLabels
    split
    · exact absurd rfl h1
    · exact absurd rfl h2
    · rfl
  unfold DocTree.hyperrefActions
  simp only [ht]
  split
  · exact absurd rfl h.2.2.2.1
  · exact ⟨addReference_notes .., hw _⟩
  · exact absurd rfl h.1
  · exact absurd rfl h.2.1
  · exact absurd rfl h.2.2.2.2
  · exact ⟨(addReference_notes ..).trans (addTargets_notes ..), hw _⟩
  · exact absurd rfl h.2.2.1
  · exact ⟨addTargets_notes .., hw _⟩

/-! ## Steps -/

theorem P.push_ok {s : PS} {data : NodeType} {cs : List TreeNode} (hc : s.doc.tree.node.children = some cs)
    (ha : childIsAllowed s.doc.tree.node.kind data.kind = .ok true) (hs : Simple data.kind)
    (hq : s.doc.hyperref.accumulated = []) :
    ∃ d' n, P.push data s = .ok () { s with doc := d' } ∧ d'.notes = s.doc.notes ∧ shapeOf n = .node data [] ∧
      d'.tree = { s.doc.tree with node := s.doc.tree.node.setChildren (some (cs ++ [n])) } := by
  obtain ⟨cl, d', h1, h2, h3, h4⟩ := Rustla.push_ok hc ha
  obtain ⟨q1, q2⟩ := hyperref_notes _ _ hs hq
  rw [hyperref_data _ _ hs.1 hs.2.1, q2] at h4
  rw [q1] at h3
  exact ⟨d', _, by simp [P.push, P.orFail, h1], h3, shapeOf_new .., h4⟩

/-- The labels of a node of running text. -/
def inlineLabels : NodeType → List Str
  | .FootnoteReference (displayed_text := t) .. => [normalizeRefname t]
  | _ => []

/-- A node of running text. -/
def inlineShape (n : NodeType) : Shape := .labelled n (inlineLabels n) []

/-- Nodes of running text. -/
def InText (n : NodeType) : Prop := Simple n.kind ∨ ∃ t, n = .FootnoteReference t t .Manual

theorem addReferences_notes (d : DocTree) (ls : List Str) : (d.addReferences ls).notes = d.notes := by
  unfold DocTree.addReferences
  induction ls generalizing d with
  | nil => rfl
  | cons l ls ih => rw [List.foldl_cons, ih, addReference_notes]

theorem inlineShape_simple {n : NodeType} (h : Simple n.kind) : inlineShape n = .node n [] := by
  unfold inlineShape inlineLabels
  split
  · exact absurd rfl h.2.1
  · rfl

theorem P.push_running {s : PS} {data : NodeType} {cs : List TreeNode} (hc : s.doc.tree.node.children = some cs)
    (ha : childIsAllowed s.doc.tree.node.kind data.kind = .ok true) (hs : InText data)
    (hq : s.doc.hyperref.accumulated = []) :
    ∃ d' n, P.push data s = .ok () { s with doc := d' } ∧ d'.notes = s.doc.notes ∧ shapeOf n = inlineShape data ∧
      d'.tree = { s.doc.tree with node := s.doc.tree.node.setChildren (some (cs ++ [n])) } := by
  rcases hs with hs | ⟨t, rfl⟩
  · rw [inlineShape_simple hs]
    exact P.push_ok hc ha hs hq
  · obtain ⟨cl, d', h1, h2, h3, h4⟩ := Rustla.push_ok hc ha
    have e : s.doc.hyperrefActions (.FootnoteReference t t .Manual) =
        (some [normalizeRefname t], .FootnoteReference t t .Manual, s.doc.addReferences [normalizeRefname t]) := by
      unfold DocTree.hyperrefActions
      simp only [takeLabels_none _ hq]
      rfl
    rw [e] at h3 h4
    exact ⟨d', _, by simp [P.push, P.orFail, h1], h3.trans (addReferences_notes ..), shapeOf_new .., h4⟩

theorem P.pushAll_ok : ∀ {nodes : List NodeType} {s : PS} {cs : List TreeNode},
    s.doc.tree.node.children = some cs → s.doc.hyperref.accumulated = [] →
    (∀ n ∈ nodes, childIsAllowed s.doc.tree.node.kind n.kind = .ok true ∧ InText n) →
    ∃ d' new, P.pushAll nodes s = .ok () { s with doc := d' } ∧ d'.notes = s.doc.notes ∧
      shapesOf new = nodes.map inlineShape ∧
      d'.tree = { s.doc.tree with node := s.doc.tree.node.setChildren (some (cs ++ new)) } := by
  intro nodes
  induction nodes with
  | nil =>
    intro s cs hc _ _
    refine ⟨s.doc, [], rfl, rfl, rfl, ?_⟩
    have : s.doc.tree.node.setChildren (some (cs ++ [])) = s.doc.tree.node := by
      revert hc
      cases s.doc.tree.node with | mk a b c d e => simp [TreeNode.setChildren, TreeNode.children]; exact fun h => h.symm
    rw [this]
  | cons n ns ih =>
    intro s cs hc hq hn
    obtain ⟨d1, m, h1, h2, h3, h4⟩ := P.push_running hc (hn n (by simp)).1 (hn n (by simp)).2 hq
    have hk : d1.tree.node.kind = s.doc.tree.node.kind := by
      rw [h4]; simp only [TreeNode.kind, TreeNode.data_setChildren]
    obtain ⟨d', new, g1, g2, g3, g4⟩ := ih (s := { s with doc := d1 }) (cs := cs ++ [m])
      (by simp only [h4, TreeNode.children_setChildren]) ((congrArg Prod.snd h2).trans hq) (by
        intro x hx
        simp only [hk]
        exact hn x (by simp [hx]))
    refine ⟨d', m :: new, ?_, by simp only [g2, h2], by simp [shapesOf, h3, g3], ?_⟩
    · simp only [P.pushAll, bind, P.bind, h1, g1]
    · rw [g4]
      simp only [h4]
      cases s.doc.tree.node with | mk a b c d e => simp [TreeNode.setChildren]

theorem P.pushFocus_ok {s : PS} {data : NodeType} {cs : List TreeNode} (hc : s.doc.tree.node.children = some cs)
    (ha : childIsAllowed s.doc.tree.node.kind data.kind = .ok true) (hs : Simple data.kind)
    (hq : s.doc.hyperref.accumulated = []) :
    ∃ d' cl, P.pushFocus data s = .ok () { s with doc := d' } ∧ d'.notes = s.doc.notes ∧
      d'.tree = ⟨TreeNode.new data s.doc.nodeCount none cl, (s.doc.tree.node, cs.length) :: s.doc.tree.path⟩ := by
  obtain ⟨cl, d', h1, h2, h3, h4⟩ := Rustla.pushFocus_ok hc ha
  obtain ⟨q1, q2⟩ := hyperref_notes _ _ hs hq
  rw [hyperref_data _ _ hs.1 hs.2.1, q2] at h4
  rw [q1] at h3
  exact ⟨d', cl, by simp [P.pushFocus, P.orFail, h1], h3, h4⟩

theorem P.parent_ok {s : PS} {p : TreeNode} {cs : List TreeNode} {rest : List (TreeNode × Nat)}
    (hp : s.doc.tree.path = (p, cs.length) :: rest) (hc : p.children = some cs) :
    P.parent s = .ok () { s with doc := { s.doc with
      tree := ⟨p.setChildren (some (cs ++ [s.doc.tree.node])), rest⟩ } } := by
  simp [P.parent, focusOnParent_ok hp hc]

/-! ## The text of a paragraph -/

/-- What may follow a paragraph at an indentation: a blank line or a line with a smaller indentation that is not a section
line. -/
def Ends (k : Nat) (rest : List Str) : Prop := ∀ l, rest.head? = some l → isBlank l = true ∨
  (∃ j c t, j < k ∧ l = spaces j ++ c :: t ∧ isWs c = false) ∧ reLine.isMatch l = false

theorem ends_zero {rest : List Str} (h : ∀ l, rest.head? = some l → isBlank l = true) (k : Nat) : Ends k rest :=
  fun l hl => .inl (h l hl)

theorem indentLine_zero (g : List Str) : g.map (indentLine 0) = g := by
  have : indentLine 0 = id := rfl
  rw [this, List.map_id]

theorem trimStart_indented {c : Char} {t : Str} (h : isWs c = false) (i : Nat) : trimStart (spaces i ++ c :: t) = c :: t := by
  induction i with
  | zero => simp [trimStart, h]
  | succ i ih =>
    rw [spaces, List.replicate_succ, List.cons_append]
    unfold trimStart at ih ⊢
    rw [List.dropWhile_cons, if_pos (by decide)]
    exact ih

theorem Spec.TextLines.all {g : List Str} (h : TextLines g) : ∀ l ∈ g, TextLine l := by
  cases g with
  | nil => simp
  | cons l g =>
    intro x hx
    rcases List.mem_cons.mp hx with rfl | hx
    · exact h.1.toTextLine
    · exact h.2 x hx

theorem textLines_plain {g : List Str} (h : ∀ l ∈ g, PlainLine l) : TextLines g := by
  cases g with
  | nil => trivial
  | cons l g => exact ⟨(h l (by simp)).toFirstLine, fun x hx => (h x (by simp [hx])).toTextLine⟩

theorem readText_lines {ls g rest : List Str} (k : Nat) (h : ls = g.map (indentLine k) ++ rest)
    (hg : ∀ l ∈ g, ∃ c t, l = c :: t ∧ isWs c = false)
    (hr : Ends k rest) : readTextLoop true true (some k) true ls = g := by
  subst h
  induction g with
  | nil =>
    cases rest with
    | nil => rfl
    | cons l rest =>
      rcases hr l rfl with h | ⟨⟨j, c, t, hj, rfl, hc⟩, _⟩
      · simp [readTextLoop, h]
      · have : decide (k ≠ j) = true := by simp; omega
        simp only [List.map_nil, List.nil_append, readTextLoop, indented_not_blank hc j, Bool.false_eq_true, if_false,
          Bool.not_true, Bool.false_and, indentOf_indented hc j, misaligned, this, if_true]
  | cons l g ih =>
    obtain ⟨c, t, rfl, h2⟩ := hg l (by simp)
    simp only [List.map_cons, List.cons_append, readTextLoop, indentLine, indented_not_blank h2 k, Bool.false_eq_true, if_false,
      Bool.not_true, Bool.false_and, indentOf_indented h2 k, misaligned, ne_eq, not_true_eq_false, decide_false, if_true,
      trimStart_indented h2 k]
    congr 1
    exact ih fun x hx => hg x (by simp [hx])

theorem readText_plain {ls g rest : List Str} (k : Nat) (h : ls = g.map (indentLine k) ++ rest) (hg : ∀ l ∈ g, TextLine l)
    (hr : Ends k rest) : readTextLoop true true (some k) true ls = g :=
  readText_lines k h (fun l hl => (hg l hl).cons) hr

theorem trimEnd_append {a b : Str} (h : isBlank b = false) : trimEnd (a ++ b) = a ++ trimEnd b := by
  obtain ⟨c, hc, hw⟩ := (isBlank_false_iff b).mp h
  unfold trimEnd
  rw [List.reverse_append, List.dropWhile_append]
  have : ¬ (List.dropWhile isWs b.reverse).isEmpty = true := by
    simp only [List.isEmpty_iff]
    intro e
    exact Bool.noConfusion (hw.symm.trans ((dropWhile_eq_nil _ _).mp e c (by simpa using hc)))
  simp [this]

theorem trimEnd_prefix (s : Str) : ∃ t, s = trimEnd s ++ t ∧ ∀ c ∈ t, isWs c = true := by
  refine ⟨(s.reverse.takeWhile isWs).reverse, ?_, ?_⟩
  · unfold trimEnd
    rw [← List.reverse_append, List.takeWhile_append_dropWhile, List.reverse_reverse]
  · intro c hc
    exact mem_takeWhile _ _ _ (List.mem_reverse.mp hc)

/-- The text of a paragraph has as many line feeds as there are line breaks. -/
theorem groupText_newlines : ∀ {g : List Str}, g ≠ [] → (∀ l ∈ g, isBlank l = false ∧ '\n' ∉ l) →
    (groupText g).count '\n' + 1 = g.length := by
  intro g
  induction g with
  | nil => intro h; exact absurd rfl h
  | cons l g ih =>
    intro _ hg
    cases g with
    | nil =>
      obtain ⟨t, ht, _⟩ := trimEnd_prefix l
      have : '\n' ∉ trimEnd l := fun hm => (hg l (by simp)).2 (by rw [ht]; simp [hm])
      simp [groupText, joinWith, List.count_eq_zero_of_not_mem this]
    | cons l' g =>
      have := ih (by simp) fun x hx => hg x (by simp [hx])
      have hb : isBlank (joinWith ['\n'] (l' :: g)) = false := by
        obtain ⟨c, hc, hw⟩ := (isBlank_false_iff l').mp (hg l' (by simp)).1
        refine (isBlank_false_iff _).mpr ⟨c, ?_, hw⟩
        cases g with
        | nil => exact hc
        | cons => simp [joinWith, hc]
      have e : groupText (l :: l' :: g) = (l ++ ['\n']) ++ groupText (l' :: g) := by
        unfold groupText
        rw [joinWith, trimEnd_append hb]
      rw [e]
      simp only [List.count_append, List.count_singleton, List.length_cons, beq_self_eq_true, if_true,
        List.count_eq_zero_of_not_mem (hg l (by simp)).2]
      simp only [List.length_cons] at this
      omega

theorem joinWith_mem {sep : Str} {x : Char} : ∀ {g : List Str}, x ∈ joinWith sep g → x ∈ sep ∨ ∃ l ∈ g, x ∈ l := by
  intro g
  induction g with
  | nil => intro h; simp [joinWith] at h
  | cons l g ih =>
    cases g with
    | nil => intro h; exact .inr ⟨l, by simp, h⟩
    | cons l' g =>
      intro h
      simp only [joinWith, List.mem_append] at h
      rcases h with (h | h) | h
      · exact .inr ⟨l, by simp, h⟩
      · exact .inl h
      · rcases ih h with h | ⟨y, hy, hx⟩
        · exact .inl h
        · exact .inr ⟨y, List.mem_cons_of_mem _ hy, hx⟩

theorem groupText_mem {x : Char} {g : List Str} (h : x ∈ groupText g) : x = '\n' ∨ ∃ l ∈ g, x ∈ l := by
  obtain ⟨t, ht, _⟩ := trimEnd_prefix (joinWith ['\n'] g)
  have : x ∈ joinWith ['\n'] g := by rw [ht]; exact List.mem_append.mpr (.inl h)
  simpa using joinWith_mem this

theorem groupText_plain {g : List Str} (hg : ∀ l ∈ g, markupFree l) : markupFree (groupText g) := by
  intro c hc
  rcases groupText_mem hc with rfl | ⟨l, hl, hx⟩
  · decide
  · exact hg l hl c hx

theorem groupText_nonblank {g : List Str} (hne : g ≠ []) (hg : ∀ l ∈ g, TextLine l) : groupText g ≠ [] := by
  obtain ⟨t, ht, hw⟩ := trimEnd_prefix (joinWith ['\n'] g)
  intro e
  change trimEnd _ = [] at e
  rw [e] at ht
  cases g with
  | nil => exact hne rfl
  | cons l g =>
    obtain ⟨c, t', rfl, h2⟩ := (hg l (by simp)).cons
    have : c ∈ joinWith ['\n'] ((c :: t') :: g) := by cases g <;> simp [joinWith]
    rw [ht] at this
    exact Bool.noConfusion (h2.symm.trans (hw c (by simpa using this)))

theorem literalIndicator_none {s : Str} (h : ∀ u, s ≠ u ++ [':', ':']) : literalIndicator s = none := by
  unfold literalIndicator
  split
  · rename_i e
    exact absurd (by simpa using congrArg List.reverse e) (h [])
  · rename_i c rest e
    exact absurd (by simpa using congrArg List.reverse e) (h (rest.reverse ++ [c]))
  · rfl

theorem last_colon {w : Str} (h : w.getLast? = some ':') : w = w.dropLast ++ ':' :: [] :=
  (List.dropLast_append_getLast? ':' (by simpa using h)).symm

/-- Only a word with a colon ends with a colon. -/
theorem piece_colon {p : Piece} (h : p.Ok) (hl : p.source.getLast? = some ':') : ∃ w, p = .lead w := by
  have key : ∀ w : Str, (∀ c ∈ w, c ≠ ':') → w.getLast? ≠ some ':' := fun w hw he =>
    hw ':' (List.mem_of_getLast? he) rfl
  cases p with
  | space w => exact absurd hl (key w fun c hc e => by have := h.2 c hc; rw [e] at this; revert this; decide)
  | word w => exact absurd rfl (h.2.2.colons.split (last_colon hl)).1
  | lead w => exact ⟨w, rfl⟩
  | link c gap u next =>
    exfalso
    obtain ⟨_, _, _, hn, hx⟩ := h
    have e : (Piece.link c gap u next).source = ('`' :: (c ++ (gap ++ '<' :: (u ++ ['>', '`', '_'])))) ++ next := by simp [Piece.source]
    rw [e, List.getLast?_append] at hl
    cases hy : next.getLast? with
    | none => rw [hy] at hl; simp [List.getLast?_cons] at hl
    | some y =>
      rw [hy] at hl
      have hl : y = ':' := by simpa using hl
      subst hl
      rcases hx _ (List.mem_of_getLast? hy) with h | h
      · revert h; decide
      · revert h; decide
  | ref n => simp [Piece.source, List.getLast?_cons] at hl
  | url u =>
    obtain ⟨_, _, hs, c, hc, _⟩ := h
    have hmem : c = ':' := by
      have e : u.text = (u.scheme ++ ':' :: '/' :: '/' :: u.host.text) ++ pathText u.segments u.slash := by simp [Url.text]
      rw [show (Piece.url u).source = u.text from rfl, e, List.getLast?_append, hc] at hl
      simpa using hl
    rw [hmem] at hc
    refine absurd hc (key _ fun x hx e => ?_)
    subst e
    simp only [pathText, List.mem_append, List.mem_flatten, List.mem_map] at hx
    rcases hx with ⟨_, ⟨s, h1, rfl⟩, hx⟩ | hx
    · rcases List.mem_cons.mp hx with hx | hx
      · revert hx; decide
      · have := (hs s h1).2 _ hx
        revert this; decide
    · cases h : u.slash <;> rw [h] at hx <;> revert hx <;> decide
  | mail m =>
    have h0 : (m.site.text ++ (m.domain.map fun p => p.1 :: p.2).flatten).getLast? = some ':' := by
      have e : m.text = (m.box ++ ['@']) ++ m.host := by simp [Mail.text]
      rw [show (Piece.mail m).source = m.text from rfl, e, List.getLast?_append] at hl
      cases hg : m.host.getLast? with
      | none =>
        rw [List.getLast?_eq_none_iff] at hg
        simp only [Mail.host, List.append_eq_nil_iff] at hg
        exact absurd hg.1 (name_text_chars h.site).1
      | some c => rw [hg] at hl; rw [show m.site.text ++ (m.domain.map fun p => p.1 :: p.2).flatten = m.host from rfl, hg]; simpa using hl
    refine absurd h0 (key _ fun x hx e => ?_)
    subst e
    rcases List.mem_append.mp hx with hx | hx
    · rcases (name_text_chars h.site).2 _ hx with h | h <;> revert h <;> decide
    · obtain ⟨l, hl, hx⟩ := List.mem_flatten.mp hx
      obtain ⟨p, hp, rfl⟩ := List.mem_map.mp hl
      obtain ⟨k1, _, k3⟩ := h.domain p hp
      rcases List.mem_cons.mp hx with h | h
      · rw [← h] at k1; revert k1; decide
      · exact absurd (k3 _ h) (by decide)
  | opener b =>
    have : b = ':' := by simpa [Piece.source] using hl
    subst this
    exact absurd h (by decide)
  | _ => simp [Piece.source, List.getLast?_cons] at hl

/-- No text made of pieces ends with two colons. -/
theorem pieces_last {ps : List Piece} (h : Pieces ps) : ∀ u, piecesSource ps ≠ u ++ [':', ':'] := by
  induction ps with
  | nil => intro u; simp [piecesSource]
  | cons p ps ih =>
    intro u e
    obtain ⟨hok, hf, hps⟩ := h
    rw [piecesSource_cons] at e
    rcases List.eq_nil_or_concat (piecesSource ps) with hr | ⟨r, y, hr⟩
    · rw [hr, List.append_nil] at e
      obtain ⟨w, rfl⟩ := piece_colon hok (by rw [e]; simp [List.getLast?_append])
      have e : w ++ [':'] = (u ++ [':']) ++ [':'] := by simpa [Piece.source] using e
      have := List.append_cancel_right e
      exact (hok.2.colons.split this).1 rfl
    · rw [hr, List.concat_eq_append, ← List.append_assoc] at e
      have e : (p.source ++ r) ++ [y] = (u ++ [':']) ++ [':'] := by simpa using e
      obtain ⟨e1, e2⟩ := List.append_inj' e rfl
      cases e2
      rcases List.eq_nil_or_concat r with h0 | ⟨r', z, h0⟩
      · subst h0
        rw [List.append_nil] at e1
        obtain ⟨w, rfl⟩ := piece_colon hok (by rw [e1]; simp)
        have := pieces_atEnd (p := .lead w) trivial hf hps ':' (by rw [hr]; rfl)
        revert this; decide
      · subst h0
        rw [List.concat_eq_append, ← List.append_assoc] at e1
        obtain ⟨_, e3⟩ := List.append_inj' e1 rfl
        cases e3
        exact ih hps r' (by rw [hr]; simp)

/-- The kinds of nodes that pieces stand for. -/
def pieceKinds : List Kind := [.WhiteSpace, .Text, .Emphasis, .StrongEmphasis, .Literal, .Math, .Subscript, .Superscript,
  .TitleReference, .Reference, .CitationReference, .InterpretedText, .FootnoteReference]

theorem piece_kind (p : Piece) : p.node.kind ∈ pieceKinds := by
  cases p with
  | role r c => cases r <;> simp [pieceKinds, Piece.node, Role.node, NodeType.kind]
  | _ => simp [pieceKinds, Piece.node, NodeType.kind]

theorem piece_running (p : Piece) : InText p.node := by
  have : ∀ k ∈ pieceKinds, k ≠ .FootnoteReference → Simple k := by unfold Simple; decide
  by_cases h : p.node.kind = .FootnoteReference
  · cases p with
    | foot n => exact .inr ⟨n, rfl⟩
    | role r c => cases r <;> cases h
    | _ => cases h
  · exact .inl (this _ (piece_kind p) h)

theorem piece_shape (p : Piece) : inlineShape p.node = p.shape := by
  cases p with
  | role r c => cases r <;> rfl
  | _ => rfl

/-- The trees of pieces. -/
theorem pieces_shapes (ps : List Piece) : (ps.map Piece.node).map inlineShape = ps.map Piece.shape := by
  rw [List.map_map]
  exact List.map_congr_left fun p _ => piece_shape p

/-- Pieces are leaves that may stand in a paragraph. -/
theorem piece_simple (p : Piece) : childIsAllowed .Paragraph p.node.kind = .ok true ∧ InText p.node := by
  have : ∀ k ∈ pieceKinds, childIsAllowed .Paragraph k = .ok true := by decide
  exact ⟨this _ (piece_kind p), piece_running p⟩

theorem joined_free {w : Str} (h : '_' ∉ w) : Joined w := by
  induction w with
  | nil => trivial
  | cons a w ih => exact ⟨fun e => absurd (by simp [e]) h, ih fun hm => h (by simp [hm])⟩

/-- Words without special characters contain no markup. -/
theorem quiet_free {w : Str} (h : markupFree w) : Spec.Quiet w := by
  have hopen : ∀ c ∈ w, c ∉ opening := by
    intro c hc ho
    have : (opening.all fun c => markupChars.contains c) = true := by decide
    exact h c hc (by simpa using List.all_eq_true.mp this c ho)
  refine ⟨fun c hc => hopen c ?_, ?_, joined_free fun hm => h _ hm (by decide),
    fun k _ hk => absurd (by decide : ':' ∈ markupChars) (h _ (List.mem_of_getElem? hk)), fun hm => h _ hm (by decide)⟩
  · cases w with
    | nil => simp at hc
    | cons a w => simp at hc; simp [hc]
  · match w, hopen with
    | [], _ => trivial
    | [_], _ => trivial
    | c :: d :: _, hopen => exact fun hd => absurd hd (hopen d (by simp))

/-- A text without markup is made of its runs. -/
theorem pieces_of_runs {s : Str} (h : markupFree s) :
    ∃ ps, Pieces ps ∧ piecesSource ps = s ∧ ps.map Piece.node = (runs s).map runNode := by
  obtain ⟨halt, hkind⟩ := C33_alternate s
  obtain ⟨hfl, hne⟩ := C33_runs s
  have key : ∀ l : List Str, l.IsChain (fun a b => a.all isWs ≠ b.all isWs) →
      (∀ r ∈ l, (∀ x ∈ r, isWs x = true) ∨ ∀ x ∈ r, isWs x = false) → (∀ r ∈ l, r ≠ []) → (∀ r ∈ l, markupFree r) →
      Pieces (l.map fun r => if r.all isWs then Piece.space r else Piece.word r) := by
    intro l
    induction l with
    | nil => intro _ _ _ _; trivial
    | cons r l ih =>
      intro hc hk hn hm
      refine ⟨?_, ?_, ih hc.tail (fun x hx => hk x (by simp [hx])) (fun x hx => hn x (by simp [hx])) fun x hx => hm x (by simp [hx])⟩
      · show Piece.Ok (if r.all isWs then Piece.space r else Piece.word r)
        split
        · rename_i h
          exact ⟨hn r (by simp), by simpa using h⟩
        · rename_i h
          refine ⟨hn r (by simp), ?_, quiet_free (hm r (by simp))⟩
          rcases hk r (by simp) with h' | h'
          · exact absurd (by simpa using h') h
          · exact h'
      · cases l with
        | nil => by_cases hr : r.all isWs = true <;> simp only [hr, if_true, Bool.false_eq_true, if_false] <;> trivial
        | cons r' l =>
          have := (List.isChain_cons_cons.mp hc).1
          simp only [List.map_cons, List.head?_cons]
          cases hr : r.all isWs <;> cases hr' : r'.all isWs
          · exact absurd (hr.trans hr'.symm) this
          · trivial
          · trivial
          · exact absurd (hr.trans hr'.symm) this
  refine ⟨(runs s).map fun r => if r.all isWs then Piece.space r else Piece.word r, ?_, ?_, ?_⟩
  · refine key _ halt hkind hne fun r hr c hc => h c ?_
    rw [← hfl]
    exact List.mem_flatten.mpr ⟨r, hr, hc⟩
  · conv => rhs; rw [← hfl]
    unfold piecesSource
    rw [List.map_map]
    congr 1
    conv => rhs; rw [← List.map_id (runs s)]
    refine List.map_congr_left fun r _ => ?_
    simp only [Function.comp_apply, id]
    split <;> rfl
  · rw [List.map_map]
    refine List.map_congr_left fun r _ => ?_
    simp only [Function.comp_apply, runNode]
    split <;> rfl

/-- What a paragraph does to the stack of states: a literal block follows if the text ended with two colons. -/
def announce (o : Option Str) : PushOrPop := if o.isSome then .push [.LiteralBlock] else .neither

/-- A group of lines becomes one paragraph of the focused node, and the cursor moves to its last line. -/
theorem parseParagraph_any (E : Env) (k : Nat) (s : PS) {g rest : List Str} {ps : List Piece} {cs : List TreeNode} {o : Option Str}
    (hsrc : E.src.drop s.cursor.relativeOffset = g.map (indentLine k) ++ rest) (hne : g ≠ []) (hg : ∀ l ∈ g, TextLine l)
    (hps : Pieces ps) (hli : literalIndicator (groupText g) = o) (htx : o.getD (groupText g) = piecesSource ps) (hps0 : ps ≠ [])
    (hcount : (piecesSource ps).count '\n' = g.length - 1) (hr : Ends k rest)
    (hb : s.doc.tree.node.data.bodyIndent = some (k + E.baseIndent))
    (ha : childIsAllowed s.doc.tree.node.kind .Paragraph = .ok true) (hc : s.doc.tree.node.children = some cs) :
    ∃ d' para, parseParagraph E (k + E.baseIndent) s =
        .ok (announce o, some 1) { s with doc := d', cursor := s.cursor.incrementBy (g.length - 1) } ∧
      d'.notes = (s.doc.notes.1, []) ∧ shapeOf para = .labelled (.Paragraph (k + E.baseIndent)) s.doc.hyperref.accumulated (ps.map Piece.shape) ∧
      d'.tree = { s.doc.tree with node := s.doc.tree.node.setChildren (some (cs ++ [para])) } := by
  have hlen : ¬ E.src.length < s.cursor.relativeOffset := by
    intro h
    rw [List.drop_eq_nil_of_le (by omega)] at hsrc
    have := List.append_eq_nil_iff.mp hsrc.symm
    exact hne (by simpa using this.1)
  have hread : readTextBlock E.src s.cursor.relativeOffset true true (some k) true = .ok (g, g.length) := by
    simp [readTextBlock, hlen, readText_plain k hsrc hg hr]
  have htext : Rustla.paragraphText E (k + E.baseIndent) s = .ok (groupText g) s := by
    have : ¬ (k + E.baseIndent < E.baseIndent) := by omega
    simp [Rustla.paragraphText, bind, P.bind, P.lift, checkedSub, this, P.textBlock, hread, pure, P.pure, groupText]
  have hsimple : Simple Kind.Paragraph := ⟨by decide, by decide, by decide, by decide, by decide⟩
  obtain ⟨cl, d1, h1, _, h2, h3⟩ := Rustla.pushFocus_ok (d := s.doc) (data := .Paragraph (k + E.baseIndent)) hc ha
  obtain ⟨q1, q2⟩ := hyperref_takes s.doc (.Paragraph (k + E.baseIndent)) hsimple (by simp [NodeType.kind]) (by simp [NodeType.kind])
  rw [hyperref_data s.doc (.Paragraph (k + E.baseIndent)) hsimple.1 hsimple.2.1] at h3
  rw [q1] at h2
  replace h1 : P.pushFocus (.Paragraph (k + E.baseIndent)) s = .ok () { s with doc := d1 } := by simp [P.pushFocus, P.orFail, h1]
  have hin := C57_markup (some d1) s.cursor ps hps
  rw [hcount] at hin
  have hnodes : (ps.map Piece.node).isEmpty = false := by
    cases ps with
    | nil => exact absurd rfl hps0
    | cons => rfl
  obtain ⟨d2, new, g1, g2, g3, g4⟩ := P.pushAll_ok (nodes := ps.map Piece.node)
    (s := { s with doc := d1, cursor := s.cursor.incrementBy (g.length - 1) }) (cs := [])
    (by simp only [h3]; rfl) (congrArg Prod.snd h2) (by
      intro n hn
      obtain ⟨r, _, rfl⟩ := List.mem_map.mp hn
      have hk : d1.tree.node.kind = .Paragraph := by rw [h3]; rfl
      simp only [hk]
      exact piece_simple r)
  have hpath : d2.tree.path = (s.doc.tree.node, cs.length) :: s.doc.tree.path := by rw [g4]; simp only [h3]
  have hpar := P.parent_ok (s := { s with doc := d2, cursor := s.cursor.incrementBy (g.length - 1) }) hpath hc
  have hfill : fillParagraph (piecesSource ps) { s with doc := d1 } = .ok () { s with
      doc := { d2 with tree := ⟨s.doc.tree.node.setChildren (some (cs ++ [d2.tree.node])), s.doc.tree.path⟩ }
      cursor := s.cursor.incrementBy (g.length - 1) } := by
    simp only [fillParagraph, bind, P.bind, P.inlineDoc, hin, hnodes, Bool.false_eq_true, if_false, Option.getD_some]
    simp only [g1, hpar]
  refine ⟨{ d2 with tree := ⟨s.doc.tree.node.setChildren (some (cs ++ [d2.tree.node])), s.doc.tree.path⟩ },
    d2.tree.node, ?_, (g2.trans h2 : d2.notes = (s.doc.notes.1, [])), ?_, rfl⟩
  · have hi : parentIndentMatches s.doc.tree.node.data (k + E.baseIndent) = .ok .justRight := by
      simp [parentIndentMatches, hb]
    simp only [parseParagraph, atIndent, bind, P.bind, P.doc, P.lift, DocTree.sharedData, hi, htext, h1, hli, htx,
      hfill, pure, P.pure]
    unfold announce
    cases o <;> rfl
  · rw [g4]
    simp only [h3]
    have : shapeOf ((TreeNode.new (.Paragraph (k + E.baseIndent)) s.doc.nodeCount (s.doc.hyperrefActions (.Paragraph (k + E.baseIndent))).1 cl).setChildren
        (some ([] ++ new))) = .labelled (.Paragraph (k + E.baseIndent)) s.doc.hyperref.accumulated (shapesOf new) := by
      rw [shapeOf_children (TreeNode.children_setChildren ..), ← q2]; rfl
    rw [this, g3, pieces_shapes]

theorem plain_text {g : List Str} {ps : List Piece} (hne : g ≠ []) (hg : ∀ l ∈ g, TextLine l) (hps : Pieces ps) (htx : groupText g = piecesSource ps) :
    literalIndicator (groupText g) = none ∧ ps ≠ [] ∧ (piecesSource ps).count '\n' = g.length - 1 := by
  refine ⟨literalIndicator_none (htx ▸ pieces_last hps), ?_, ?_⟩
  · rintro rfl
    exact absurd htx (groupText_nonblank hne hg)
  · rw [← htx]
    have := groupText_newlines hne fun l hl => ⟨(hg l hl).not_blank, (hg l hl).oneLine⟩
    omega

/-! ## Rounds of the loop -/

/-- `k` rounds lead from one state of the loop to another one. -/
def Reaches (M : Machine) (k : Nat) (s s' : LoopState) : Prop := ∀ f, parseLoop M (f + k) s = parseLoop M f s'

theorem Reaches.refl (M : Machine) (s : LoopState) : Reaches M 0 s s := fun _ => rfl

theorem Reaches.step {M : Machine} {s s' : LoopState} (h : parseStep M s = .ok (.next s')) : Reaches M 1 s s' := by
  intro f
  simp [parseLoop, h, bind, Except.bind]

theorem Reaches.trans {M : Machine} {a b : Nat} {s s' s'' : LoopState} (h : Reaches M a s s') (h' : Reaches M b s' s'') :
    Reaches M (a + b) s s'' := by
  intro f
  have : f + (a + b) = (f + b) + a := by omega
  rw [this, h, h']

/-- The stack at the end of a round that goes on with the given lines. -/
def stackFor (stack : List State) (rest : List Str) : List State := if rest.isEmpty then stack ++ [.EOF] else stack

/-- The loop is at the given lines, in the given state. -/
structure Stands (E : Env) (s : LoopState) (st : State) (lines : List Str) : Prop where
  here : E.src.drop s.ps.cursor.relativeOffset = lines
  notEnd : lines ≠ []
  top : s.stack.getLast? = some st
  fresh : s.count < 10

/-- A round in which a transition succeeds and moves the cursor by a positive number of lines. -/
theorem step_moved {E : Env} {s : LoopState} {st : State} {l : Str} {ls : List Str} {ts : List (Re × Transition)}
    (h : Stands E s st (l :: ls)) (ht : tableOf E st = .ok ts) (hst : st ≠ .EOF ∧ st ≠ .Failure)
    {m : Match} {f : Transition} (hf : firstTransition l ts = some (m, f)) {pp : PushOrPop} {adv : LineAdvance} {ps : PS}
    (hr : f m s.ps = .ok (pp, adv) ps) {stack : List State} (hp : applyPushOrPop s.stack pp = .ok stack) {k : Nat}
    (hk : applyAdvance ps.cursor adv = s.ps.cursor.incrementBy k) (h0 : k ≠ 0) (hle : k ≤ (l :: ls).length) :
    parseStep (machineOf E) s = .ok (.next
      { ps := { ps with cursor := s.ps.cursor.incrementBy k }, stack := stackFor stack ((l :: ls).drop k), changed := true,
        count := 0 }) := by
  have hget : E.src[s.ps.cursor.relativeOffset]? = some l := by
    have := congrArg (·[0]?) h.here
    simpa using this
  have hlen : (l :: ls).length = E.src.length - s.ps.cursor.relativeOffset := by
    rw [← h.here]; simp
  have hlen' : s.ps.cursor.relativeOffset < E.src.length := by
    simp only [List.length_cons] at hlen; omega
  unfold parseStep
  rw [if_neg (by rintro ⟨_, h2⟩; have := h.fresh; omega), h.top]
  have hgo : (do runTable (machineOf E) s (← (machineOf E).table st)) = Except.ok (Round.next
      { ps := { ps with cursor := s.ps.cursor.incrementBy k }, stack := stackFor stack ((l :: ls).drop k), changed := true,
        count := 0 }) := by
    have e1 : (machineOf E).table st = .ok ts := ht
    have e2 : (machineOf E).src[s.ps.cursor.relativeOffset]? = some l := hget
    simp only [e1, bind, Except.bind]
    cases ts with
    | nil => simp [firstTransition] at hf
    | cons t ts =>
      have hne : ¬ (s.ps.cursor.incrementBy k).sumTotal = s.ps.cursor.sumTotal := by
        simp only [LineCursor.incrementBy, LineCursor.sumTotal]; omega
      simp only [runTable, e2, hf, hr, afterTransition, hp, bind, Except.bind, hk, hne, if_false, pure, Except.pure, endRound]
      have hiff : (s.ps.cursor.incrementBy k).relativeOffset ≥ (machineOf E).src.length ↔ (l :: ls).drop k = [] := by
        show s.ps.cursor.offset + k ≥ E.src.length ↔ _
        rw [List.drop_eq_nil_iff]
        have : s.ps.cursor.relativeOffset = s.ps.cursor.offset := rfl
        omega
      by_cases hd : (l :: ls).drop k = []
      · rw [if_pos (hiff.mpr hd)]; simp [stackFor, hd]
      · rw [if_neg (fun x => hd (hiff.mp x))]
        have : ((l :: ls).drop k).isEmpty = false := by
          cases he : (l :: ls).drop k with
          | nil => exact absurd he hd
          | cons => rfl
        simp [stackFor, this]
  cases st with
  | EOF => exact absurd rfl hst.1
  | Failure => exact absurd rfl hst.2
  | _ => exact hgo

/-- A blank line. -/
theorem step_blank {E : Env} {s : LoopState} {st : State} {l : Str} {ls : List Str} {ts : List (Re × Transition)}
    (h : Stands E s st (l :: ls)) (ht : tableOf E st = .ok ((reBlankLine, emptyLine) :: ts))
    (hst : st ≠ .EOF ∧ st ≠ .Failure) (hl : isBlank l = true) :
    parseStep (machineOf E) s = .ok (.next
      { ps := { s.ps with cursor := s.ps.cursor.incrementBy 1 }, stack := stackFor s.stack ls, changed := true,
        count := 0 }) := by
  obtain ⟨m, hm⟩ := blank_transition hl ts
  have := step_moved h ht hst hm (pp := .neither) (adv := some 1) (ps := s.ps) rfl rfl (k := 1) rfl (by decide) (by simp)
  simpa using this

/-- A paragraph at some indentation, which may announce a literal block: its first line is taken for text. -/
theorem step_paragraph_text {E : Env} (k : Nat) {s : LoopState} {st : State} {g rest : List Str} {ps : List Piece} {cs : List TreeNode}
    {ts : List (Re × Transition)} {o : Option Str} {stack : List State} (hpush : applyPushOrPop s.stack (announce o) = .ok stack)
    (h : Stands E s st (g.map (indentLine k) ++ rest)) (ht : tableOf E st = .ok ts)
    (hts : ∀ l, g.head? = some l → ∃ m tr, firstTransition (indentLine k l) ts = some (m, tr) ∧ tr m s.ps = textAt E k s.ps)
    (hst : st ≠ .EOF ∧ st ≠ .Failure) (hne : g ≠ []) (hg : ∀ l ∈ g, TextLine l)
    (hps : Pieces ps) (hli : literalIndicator (groupText g) = o) (htx : o.getD (groupText g) = piecesSource ps) (hps0 : ps ≠ [])
    (hcount : (piecesSource ps).count '\n' = g.length - 1) (hr : Ends k rest)
    (hb : s.ps.doc.tree.node.data.bodyIndent = some (k + E.baseIndent))
    (ha : childIsAllowed s.ps.doc.tree.node.kind .Paragraph = .ok true) (hc : s.ps.doc.tree.node.children = some cs) :
    ∃ d' para, parseStep (machineOf E) s = .ok (.next
        { ps := { s.ps with doc := d', cursor := s.ps.cursor.incrementBy g.length }, stack := stackFor stack rest,
          changed := true, count := 0 }) ∧
      d'.notes = (s.ps.doc.notes.1, []) ∧ shapeOf para = .labelled (.Paragraph (k + E.baseIndent)) s.ps.doc.hyperref.accumulated (ps.map Piece.shape) ∧
      d'.tree = { s.ps.doc.tree with node := s.ps.doc.tree.node.setChildren (some (cs ++ [para])) } := by
  obtain ⟨d', para, h1, h2, h3, h4⟩ := parseParagraph_any E k s.ps h.here hne hg hps hli htx hps0 hcount hr hb ha hc
  refine ⟨d', para, ?_, h2, h3, h4⟩
  cases g with
  | nil => exact absurd rfl hne
  | cons l g =>
    obtain ⟨m, tr, hm, htr⟩ := hts l rfl
    have hnext : E.src[s.ps.cursor.relativeOffset + 1]? = (g.map (indentLine k) ++ rest)[0]? := by
      have := congrArg (·[1]?) h.here
      simpa using this
    have hres : tr m s.ps = .ok (announce o, some 1)
        { s.ps with doc := d', cursor := s.ps.cursor.incrementBy ((l :: g).length - 1) } := by
      rw [htr]
      unfold textAt
      simp only [bind, P.bind, P.offset, hnext]
      cases g with
      | nil =>
        cases rest with
        | nil => simpa using h1
        | cons b rest =>
          rcases hr b rfl with hbl | ⟨⟨j, c, t, hj, rfl, hcw⟩, hline⟩
          · simp only [List.map_nil, List.nil_append, List.getElem?_cons_zero, blank_not_line hbl, Bool.false_eq_true, if_false,
              blank_not_text hbl]
            exact h1
          · obtain ⟨m', hm', hg'⟩ := indented_text (t := t) hcw j
            have hle : ¬ (j + E.baseIndent > k + E.baseIndent) := by omega
            simp only [List.map_nil, List.nil_append, List.getElem?_cons_zero, hline, Bool.false_eq_true, if_false, hm', hg',
              List.length_replicate, hle]
            exact h1
      | cons l' g =>
        have hl' := hg l' (by simp)
        have hline := hl'.indented_not_line k
        obtain ⟨c, t, rfl, hcw⟩ := hl'.cons
        obtain ⟨m', hm', hg'⟩ := indented_text (t := t) hcw k
        unfold indentLine at hline
        simp only [List.map_cons, indentLine, List.cons_append, List.getElem?_cons_zero, hline, Bool.false_eq_true, if_false, hm',
          hg', List.length_replicate, Nat.lt_irrefl, gt_iff_lt]
        exact h1
    have := step_moved (l := indentLine k l) (ls := g.map (indentLine k) ++ rest) h ht hst hm hres hpush
      (k := (l :: g).length) (by simp [applyAdvance, LineCursor.incrementBy]; omega) (by simp) (by simp)
    rw [this]
    have hdrop : (indentLine k l :: (g.map (indentLine k) ++ rest)).drop (l :: g).length = rest := by simp
    rw [hdrop]

/-- A paragraph of plain lines at some indentation, which may announce a literal block. -/
theorem step_paragraph_any {E : Env} (k : Nat) {s : LoopState} {st : State} {g rest : List Str} {ps : List Piece} {cs : List TreeNode}
    {ts : List (Re × Transition)} {o : Option Str} {stack : List State} (hpush : applyPushOrPop s.stack (announce o) = .ok stack)
    (h : Stands E s st (g.map (indentLine k) ++ rest)) (ht : tableOf E st = .ok ts)
    (hts : ∀ l, g.head? = some l → firstTransition (indentLine k l) ts = firstTransition (indentLine k l) (bodyTable E))
    (hst : st ≠ .EOF ∧ st ≠ .Failure) (hne : g ≠ []) (hg : TextLines g)
    (hps : Pieces ps) (hli : literalIndicator (groupText g) = o) (htx : o.getD (groupText g) = piecesSource ps) (hps0 : ps ≠ [])
    (hcount : (piecesSource ps).count '\n' = g.length - 1) (hr : Ends k rest)
    (hb : s.ps.doc.tree.node.data.bodyIndent = some (k + E.baseIndent))
    (ha : childIsAllowed s.ps.doc.tree.node.kind .Paragraph = .ok true) (hc : s.ps.doc.tree.node.children = some cs) :
    ∃ d' para, parseStep (machineOf E) s = .ok (.next
        { ps := { s.ps with doc := d', cursor := s.ps.cursor.incrementBy g.length }, stack := stackFor stack rest,
          changed := true, count := 0 }) ∧
      d'.notes = (s.ps.doc.notes.1, []) ∧ shapeOf para = .labelled (.Paragraph (k + E.baseIndent)) s.ps.doc.hyperref.accumulated (ps.map Piece.shape) ∧
      d'.tree = { s.ps.doc.tree with node := s.ps.doc.tree.node.setChildren (some (cs ++ [para])) } := by
  refine step_paragraph_text k hpush h ht (fun l hl => ?_) hst hne hg.all hps hli htx hps0 hcount hr hb ha hc
  cases g with
  | nil => cases hl
  | cons a g =>
    obtain rfl : a = l := by simpa using hl
    obtain ⟨m, hm, hm1⟩ := indented_transition E hg.1 k
    rw [← hts a rfl] at hm
    exact ⟨m, _, hm, by unfold bodyText; rw [hm1, List.length_replicate]⟩

/-- A paragraph of plain lines at some indentation. -/
theorem step_paragraph_at {E : Env} (k : Nat) {s : LoopState} {st : State} {g rest : List Str} {ps : List Piece} {cs : List TreeNode}
    {ts : List (Re × Transition)}
    (h : Stands E s st (g.map (indentLine k) ++ rest)) (ht : tableOf E st = .ok ts)
    (hts : ∀ l, g.head? = some l → firstTransition (indentLine k l) ts = firstTransition (indentLine k l) (bodyTable E))
    (hst : st ≠ .EOF ∧ st ≠ .Failure) (hne : g ≠ []) (hg : TextLines g)
    (hps : Pieces ps) (htx : groupText g = piecesSource ps) (hr : Ends k rest)
    (hb : s.ps.doc.tree.node.data.bodyIndent = some (k + E.baseIndent))
    (ha : childIsAllowed s.ps.doc.tree.node.kind .Paragraph = .ok true) (hc : s.ps.doc.tree.node.children = some cs) :
    ∃ d' para, parseStep (machineOf E) s = .ok (.next
        { ps := { s.ps with doc := d', cursor := s.ps.cursor.incrementBy g.length }, stack := stackFor s.stack rest,
          changed := true, count := 0 }) ∧
      d'.notes = (s.ps.doc.notes.1, []) ∧ shapeOf para = .labelled (.Paragraph (k + E.baseIndent)) s.ps.doc.hyperref.accumulated (ps.map Piece.shape) ∧
      d'.tree = { s.ps.doc.tree with node := s.ps.doc.tree.node.setChildren (some (cs ++ [para])) } := by
  obtain ⟨h1, h2, h3⟩ := plain_text hne hg.all hps htx
  exact step_paragraph_any k (o := none) rfl h ht hts hst hne hg hps h1 htx h2 h3 hr hb ha hc

/-- The first of these lines is taken for text wherever they stand in the body of a document. -/
def ReadsAsText (E : Env) (g : List Str) : Prop :=
  ∀ (ps : PS) (rest : List Str) (l : Str), E.src.drop ps.cursor.relativeOffset = g ++ rest → g.head? = some l →
    ∃ m tr, firstTransition l (bodyTable E) = some (m, tr) ∧ tr m ps = textAt E 0 ps

theorem readsAsText {g : List Str} (hg : TextLines g) (E : Env) : ReadsAsText E g := by
  intro ps rest l _ hl
  cases g with
  | nil => cases hl
  | cons a g =>
    obtain rfl : a = l := by simpa using hl
    obtain ⟨m, hm, hm1⟩ := indented_transition E hg.1 0
    rw [show indentLine 0 a = a from rfl] at hm
    exact ⟨m, _, hm, by unfold bodyText; rw [hm1, List.length_replicate]⟩

/-- A paragraph of lines that are taken for text. -/
theorem step_paragraph {E : Env} {s : LoopState} {st : State} {g rest : List Str} {ps : List Piece} {cs : List TreeNode}
    (h : Stands E s st (g ++ rest)) (ht : tableOf E st = .ok (bodyTable E)) (hst : st ≠ .EOF ∧ st ≠ .Failure)
    (hne : g ≠ []) (hg : ∀ l ∈ g, TextLine l) (hra : ReadsAsText E g)
    (hps : Pieces ps) (htx : groupText g = piecesSource ps) (hr : ∀ l, rest.head? = some l → isBlank l = true)
    (hb : s.ps.doc.tree.node.data.bodyIndent = some E.baseIndent)
    (ha : childIsAllowed s.ps.doc.tree.node.kind .Paragraph = .ok true) (hc : s.ps.doc.tree.node.children = some cs)
    (hq : s.ps.doc.hyperref.accumulated = []) :
    ∃ d' para, parseStep (machineOf E) s = .ok (.next
        { ps := { s.ps with doc := d', cursor := s.ps.cursor.incrementBy g.length }, stack := stackFor s.stack rest,
          changed := true, count := 0 }) ∧
      d'.notes = s.ps.doc.notes ∧ shapeOf para = paragraphShape E.baseIndent ps ∧
      d'.tree = { s.ps.doc.tree with node := s.ps.doc.tree.node.setChildren (some (cs ++ [para])) } := by
  obtain ⟨h1, h2, h3⟩ := plain_text hne hg hps htx
  have := step_paragraph_text (E := E) 0 (s := s) (st := st) (g := g) (ps := ps) (rest := rest) (cs := cs) (o := none) rfl
    (by rw [indentLine_zero]; exact h) ht (fun l hl => hra s.ps rest l h.here hl) hst hne hg hps h1 htx h2 h3 (ends_zero hr 0)
    (by rw [Nat.zero_add]; exact hb) ha hc
  rw [Nat.zero_add, hq] at this
  have e : (s.ps.doc.notes.1, []) = s.ps.doc.notes := by simp only [DocTree.notes, hq]
  rwa [e] at this

end Rustla
