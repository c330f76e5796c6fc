import Verif.Lemmas.Back
import Verif.Lemmas.Leaves
/-! # Parsing questions -/
namespace Rustla
open Spec

/-- The parser stands some lines behind a cursor, in front of the given lines and with the given open nodes. -/
structure Pos (E : Env) (S : SectionData) (c0 : LineCursor) (s : PS) (k : Nat) (fs : List Frame) (lines : List Str) : Prop where
  cursor : s.cursor = c0.incrementBy k
  here : E.src.drop s.cursor.relativeOffset = lines
  spine : Spine s.doc.tree fs
  secs : s.doc.notes = (S, [])

theorem Pos.calm {E : Env} {S : SectionData} {c0 : LineCursor} {s : PS} {k : Nat} {fs : List Frame} {lines : List Str}
    (h : Pos E S c0 s k fs lines) : s.doc.hyperref.accumulated = [] := congrArg Prod.snd h.secs

/-- The computation succeeds with a value and leads to the given place. -/
def Does (E : Env) (S : SectionData) (c0 : LineCursor) {α : Type} (p : P α) (s : PS) (a : α) (k : Nat) (fs : List Frame)
    (lines : List Str) : Prop := ∃ s', p s = .ok a s' ∧ Pos E S c0 s' k fs lines

section
variable {E : Env} {S : SectionData} {c0 : LineCursor} {s : PS} {k : Nat} {f : Frame} {fs : List Frame} {lines : List Str}

theorem Does.bind {α β : Type} {p : P α} {g : α → P β} {a : α} {b : β} {k' : Nat} {fs' : List Frame} {ls' : List Str}
    (h : Does E S c0 p s a k fs lines) (h' : ∀ s', Pos E S c0 s' k fs lines → Does E S c0 (g a) s' b k' fs' ls') :
    Does E S c0 (p >>= g) s b k' fs' ls' := by
  obtain ⟨s1, h1, h2⟩ := h
  obtain ⟨s2, h3, h4⟩ := h' s1 h2
  exact ⟨s2, by simp only [Bind.bind, P.bind, h1, h3], h4⟩

theorem Pos.pure {α : Type} (h : Pos E S c0 s k fs lines) (a : α) : Does E S c0 (Pure.pure a) s a k fs lines := ⟨s, rfl, h⟩

theorem Pos.required {α : Type} (h : Pos E S c0 s k fs lines) {x : Option α} {a : α} (hx : x = some a) :
    Does E S c0 (P.required x) s a k fs lines := by subst hx; exact h.pure a

theorem Pos.offset (h : Pos E S c0 s k fs lines) : Does E S c0 P.offset s s.cursor.relativeOffset k fs lines := ⟨s, rfl, h⟩

/-- The current line. -/
theorem Pos.line {l : Str} {ls : List Str} (h : Pos E S c0 s k fs (l :: ls)) : E.src[s.cursor.relativeOffset]? = some l := by
  have := congrArg (·[0]?) h.here
  simpa using this

theorem Pos.advance (h : Pos E S c0 s k fs lines) (n : Nat) : Does E S c0 (P.advance n) s () (k + n) fs (lines.drop n) :=
  ⟨_, rfl, ⟨by show s.cursor.incrementBy n = _; rw [h.cursor, LineCursor.incrementBy_add], drop_incr h.here n, h.spine, h.secs⟩⟩

theorem countBlank_append {bs ls : List Str} (hb : ∀ l ∈ bs, isBlank l = true) (hl : ∀ l, ls.head? = some l → isBlank l = false) :
    countBlank (bs ++ ls) = bs.length := by
  induction bs with
  | nil =>
    cases ls with
    | nil => rfl
    | cons l ls => simp [countBlank, hl l rfl]
  | cons b bs ih => simp [countBlank, hb b (by simp), ih fun x hx => hb x (by simp [hx])]

/-- Blank lines are skipped. -/
theorem Pos.skip {bs ls : List Str} (h : Pos E S c0 s k fs (bs ++ ls)) (hb : ∀ l ∈ bs, isBlank l = true)
    (hl : ∀ l, ls.head? = some l → isBlank l = false) : Does E S c0 (P.skipEmpty E.src) s () (k + bs.length) fs ls := by
  have e : (skipEmptyLines E.src s.cursor).1 = s.cursor.incrementBy bs.length := by
    unfold skipEmptyLines
    rw [h.here, countBlank_append hb hl]
  refine ⟨_, rfl, ⟨?_, ?_, h.spine, h.secs⟩⟩
  · show (skipEmptyLines E.src s.cursor).1 = _
    rw [e, h.cursor, LineCursor.incrementBy_add]
  · show E.src.drop (skipEmptyLines E.src s.cursor).1.relativeOffset = _
    rw [e, drop_incr h.here]; simp

/-- There are no blank lines to skip. -/
theorem Pos.skip_none (h : Pos E S c0 s k fs lines) (hl : ∀ l, lines.head? = some l → isBlank l = false) :
    Does E S c0 (P.skipEmpty E.src) s () k fs lines := Pos.skip (bs := []) h (by simp) hl

theorem Pos.open (h : Pos E S c0 s k (f :: fs) lines) {data : NodeType} (st : State)
    (ha : childIsAllowed f.data.kind data.kind = .ok true) (hs : Simple data.kind) (hk : data.kind.hasChildren = true)
    (hi : data.bodyIndent.isSome = true) : Does E S c0 (P.pushFocus data) s () k (⟨st, data, [], []⟩ :: f :: fs) lines := by
  obtain ⟨d', h1, h2, h3⟩ := h.spine.push st ha hs hk hi h.calm
  exact ⟨_, h1, ⟨h.cursor, h.here, h2, h3.trans h.secs⟩⟩

theorem Pos.open_named (h : Pos E S c0 s k (f :: fs) lines) {data : NodeType} (st : State)
    (ha : childIsAllowed f.data.kind data.kind = .ok true) (hk : data.kind.hasChildren = true) (hi : data.bodyIndent.isSome = true)
    (hn : ∀ d : DocTree, d.hyperref.accumulated = [] → (d.hyperrefActions data).2.2.notes = d.notes ∧ (d.hyperrefActions data).2.1 = data ∧
      (d.hyperrefActions data).1.getD [] = ownLabels data) :
    Does E S c0 (P.pushFocus data) s () k (⟨st, data, [], []⟩ :: f :: fs) lines := by
  obtain ⟨d', h1, h2, h3⟩ := h.spine.push_named st ha hk hi hn h.calm
  exact ⟨_, h1, ⟨h.cursor, h.here, h2, h3.trans h.secs⟩⟩

theorem Pos.close {e : Frame} (h : Pos E S c0 s k (e :: f :: fs) lines) :
    Does E S c0 P.parent s () k (f.add [e.shape] :: fs) lines := by
  obtain ⟨d', h1, h2, h3⟩ := h.spine.parent
  exact ⟨{ s with doc := d' }, by simp only [P.parent, h1], ⟨h.cursor, h.here, h2, h3.trans h.secs⟩⟩

theorem Pos.mapData (h : Pos E S c0 s k (f :: fs) lines) {g : NodeType → NodeType} (hs : Simple f.data.kind)
    (hs' : Simple (g f.data).kind) (hi : (g f.data).bodyIndent.isSome = true) :
    Does E S c0 (P.mapData g) s () k ({ f with data := g f.data } :: fs) lines := by
  refine ⟨_, rfl, ⟨h.cursor, h.here, ?_, h.secs⟩⟩
  have hsp := h.spine
  show Spine (s.doc.setNodeData (g s.doc.tree.node.data)).tree _
  unfold DocTree.setNodeData
  generalize s.doc.tree = z at hsp
  cases hsp with
  | mk hl ha =>
    rename_i n cs path
    refine .mk (cs := cs) ?_ ha
    show Looks (n.setData (g n.data)) _ _
    rw [hl.1]
    obtain ⟨h1, h2, h3, h4, _⟩ := hl
    cases n with
    | mk a b c d e =>
      refine ⟨rfl, h2, h3, ?_, hi⟩
      unfold Frame.labels at h4 ⊢
      rw [ownLabels_simple hs']
      rw [ownLabels_simple hs] at h4
      exact h4

/-- A node with leaves is put behind the children of the focused node. -/
theorem Pos.entry (h : Pos E S c0 s k (f :: fs) lines) {data : NodeType} {nodes : List NodeType}
    (ha : childIsAllowed f.data.kind data.kind = .ok true) (hs : Simple data.kind) (hk : data.kind.hasChildren = true)
    (hn : ∀ n ∈ nodes, childIsAllowed data.kind n.kind = .ok true ∧ InText n) :
    ∃ s1 s2 s3, P.pushFocus data s = .ok () s1 ∧ P.pushAll nodes s1 = .ok () s2 ∧ P.parent s2 = .ok () s3 ∧
      Pos E S c0 s3 k (f.add [.node data (nodes.map inlineShape)] :: fs) lines := by
  have hsp := h.spine
  generalize hz : s.doc.tree = z at hsp
  cases hsp with
  | mk hl hab =>
    rename_i n cs path
    obtain ⟨d1, cl, h1, h2, h3⟩ := P.pushFocus_ok (s := s) (data := data) (cs := cs) (by rw [hz]; exact hl.2.1)
      (by rw [hz]; show childIsAllowed n.data.kind _ = _; rw [hl.1]; exact ha) hs h.calm
    have hnew : (TreeNode.new data s.doc.nodeCount none cl).children = some [] ∧ (TreeNode.new data s.doc.nodeCount none cl).kind = data.kind ∧
        (TreeNode.new data s.doc.nodeCount none cl).data = data ∧ (TreeNode.new data s.doc.nodeCount none cl).refnames.getD [] = [] := by
      unfold TreeNode.new; rw [if_pos hk]; exact ⟨rfl, rfl, rfl, rfl⟩
    obtain ⟨d2, new, g1, g2, g3, g4⟩ := P.pushAll_ok (nodes := nodes) (s := { s with doc := d1 }) (cs := [])
      (by simp only [h3]; exact hnew.1) ((congrArg Prod.snd h2).trans h.calm) (by
        intro x hx
        simp only [h3, hnew.2.1]
        exact hn x hx)
    have hpath : d2.tree.path = (n, cs.length) :: path := by rw [g4]; simp only [h3, hz]
    have hpar := P.parent_ok (s := { s with doc := d2 }) hpath hl.2.1
    refine ⟨_, _, _, h1, g1, hpar, ⟨h.cursor, h.here, ?_, (g2.trans h2).trans h.secs⟩⟩
    have hshape : shapeOf d2.tree.node = .node data (nodes.map inlineShape) := by
      rw [g4]
      simp only [h3]
      rw [shapeOf_children (TreeNode.children_setChildren ..), TreeNode.data_setChildren, hnew.2.2.1]
      have : ((TreeNode.new data s.doc.nodeCount none cl).setChildren (some ([] ++ new))).refnames.getD [] = [] := by
        unfold TreeNode.new; rw [if_pos hk]; rfl
      rw [this, List.nil_append, g3]
    exact .mk (hl.add (ns := [d2.tree.node]) (by simp [shapesOf, hshape])) hab

/-- The lines of a text are read. -/
theorem readText_inset {ls g rest : List Str} (k : Nat) (h : ls = g.map (indentLine k) ++ rest) (hg : ∀ l ∈ g, Inset l)
    (hr : Stops rest) : readTextLoop true true (some k) true ls = g := by
  subst h
  induction g with
  | nil =>
    cases rest with
    | nil => rfl
    | cons l rest => simp [readTextLoop, hr l rfl]
  | cons l g ih =>
    obtain ⟨c, t, rfl, h2⟩ := (hg l (by simp)).cons
    simp only [List.map_cons, List.cons_append, readTextLoop, indentLine]
    have e1 := indented_not_blank (t := t) h2 k
    have e2 := indentOf_indented (t := t) h2 k
    have e3 := trimStart_indented (t := t) h2 k
    unfold spaces at e1 e2 e3
    simp only [e1, e2, e3, Bool.false_eq_true, if_false,
      Bool.not_true, Bool.false_and, misaligned, ne_eq, not_true_eq_false, decide_false, if_true]
    congr 1
    exact ih fun x hx => hg x (by simp [hx])

theorem Pos.textBlock {g rest : List Str} {i : Nat} (h : Pos E S c0 s k fs (g.map (indentLine i) ++ rest)) (hne : g ≠ [])
    (hg : ∀ l ∈ g, Inset l) (hr : Stops rest) :
    Does E S c0 (P.textBlock E (some i)) s (g, g.length) k fs (g.map (indentLine i) ++ rest) := by
  have hlen : ¬ E.src.length < s.cursor.relativeOffset := by
    intro h'
    have := h.here
    rw [List.drop_eq_nil_of_le (by omega)] at this
    have := List.append_eq_nil_iff.mp this.symm
    exact hne (by simpa using this.1)
  refine ⟨s, ?_, h⟩
  unfold P.textBlock readTextBlock
  rw [if_neg hlen, readText_inset i h.here hg hr]

theorem Pos.inline (h : Pos E S c0 s k fs lines) {ps : List Piece} (hp : Pieces ps) :
    Does E S c0 (P.inlineNone (piecesSource ps)) s (ps.map Piece.node) (k + (piecesSource ps).count '\n') fs
      (lines.drop ((piecesSource ps).count '\n')) := by
  refine ⟨{ s with cursor := s.cursor.incrementBy ((piecesSource ps).count '\n') }, ?_, ⟨?_, drop_incr h.here _, h.spine, h.secs⟩⟩
  · unfold P.inlineNone
    rw [C57_markup none s.cursor ps hp]
  · show s.cursor.incrementBy _ = _
    rw [h.cursor, LineCursor.incrementBy_add]

theorem unlines_count : ∀ {g : List Str}, g ≠ [] → (∀ l ∈ g, Inset l) → (unlines g).count '\n' + 1 = g.length
  | [], h, _ => absurd rfl h
  | [l], _, hg => by simp [unlines, List.count_eq_zero_of_not_mem (hg l (by simp)).2]
  | l :: m :: g, _, hg => by
    have := unlines_count (g := m :: g) (by simp) fun x hx => hg x (by simp [hx])
    simp only [unlines, List.count_append, List.count_cons_self, List.count_eq_zero_of_not_mem (hg l (by simp)).2, List.length_cons] at this ⊢
    omega

theorem unlines_ne {g : List Str} (hne : g ≠ []) (hg : ∀ l ∈ g, Inset l) : unlines g ≠ [] := by
  cases g with
  | nil => exact absurd rfl hne
  | cons l g =>
    obtain ⟨c, t, rfl, _⟩ := (hg l (by simp)).cons
    cases g <;> simp [unlines]

theorem Spec.Prose.nodes {g : List Str} {ps : List Piece} (h : Prose g ps) : (ps.map Piece.node).isEmpty = false := by
  cases ps with
  | nil => exact absurd h.text (unlines_ne h.notEmpty h.lines)
  | cons => rfl

theorem Spec.Prose.count {g : List Str} {ps : List Piece} (h : Prose g ps) : (piecesSource ps).count '\n' + 1 = g.length := by
  rw [← h.text]; exact unlines_count h.notEmpty h.lines

/-- The assignment of a question is read. -/
theorem Pos.assignment {g rest : List Str} {ps : List Piece} {i : Nat} (h : Pos E S c0 s k fs (g.map (indentLine i) ++ rest))
    (hp : Prose g ps) (hr : Stops rest) :
    Does E S c0 (assignmentNodes E i) s (ps.map Piece.node) (k + g.length) fs rest := by
  unfold assignmentNodes
  refine (h.textBlock hp.notEmpty hp.lines hr).bind fun s1 h1 => ?_
  simp only
  rw [← unlines_join, hp.text]
  refine (h1.inline hp.pieces).bind fun s2 h2 => ?_
  rw [hp.nodes]
  refine (h2.advance 1).bind fun s3 h3 => ?_
  have hc := hp.count
  have e : ((g.map (indentLine i) ++ rest).drop ((piecesSource ps).count '\n')).drop 1 = rest := by
    rw [List.drop_drop, hc]; simp
  rw [e] at h3
  have := h3.pure (ps.map Piece.node)
  rwa [Nat.add_assoc, hc] at this

theorem piece_inline (k : Kind) (hk : k ∈ [Kind.Paragraph, .AplusPickChoice, .AplusQuestionnaireHint]) (p : Piece) :
    childIsAllowed k p.node.kind = .ok true ∧ InText p.node := by
  have : ∀ k ∈ [Kind.Paragraph, .AplusPickChoice, .AplusQuestionnaireHint], ∀ x ∈ pieceKinds, childIsAllowed k x = .ok true := by
    decide
  exact ⟨this k hk _ (piece_kind p), piece_running p⟩

theorem simple_paragraph : Simple .Paragraph := ⟨by decide, by decide, by decide, by decide, by decide⟩

theorem Pos.paragraph (h : Pos E S c0 s k (f :: fs) lines) (i : Nat) (ps : List Piece)
    (ha : childIsAllowed f.data.kind .Paragraph = .ok true) :
    Does E S c0 (pushParagraph i (ps.map Piece.node)) s () k (f.add [paragraphShape i ps] :: fs) lines := by
  obtain ⟨s1, s2, s3, h1, h2, h3, h4⟩ := h.entry (data := .Paragraph i) (nodes := ps.map Piece.node) ha simple_paragraph rfl (by
    intro n hn
    obtain ⟨r, _, rfl⟩ := List.mem_map.mp hn
    exact piece_inline .Paragraph (by simp) r)
  refine ⟨s3, by simp only [pushParagraph, Bind.bind, P.bind, h1, h2, h3], ?_⟩
  rw [pieces_shapes] at h4
  exact h4

theorem simple_choice : Simple .AplusPickChoice := ⟨by decide, by decide, by decide, by decide, by decide⟩
theorem simple_choices : Simple .AplusPickChoices := ⟨by decide, by decide, by decide, by decide, by decide⟩
theorem simple_hint : Simple .AplusQuestionnaireHint := ⟨by decide, by decide, by decide, by decide, by decide⟩
theorem simple_hints : Simple .AplusQuestionnaireHints := ⟨by decide, by decide, by decide, by decide, by decide⟩

theorem allowed_choice : childIsAllowed .AplusPickChoices .AplusPickChoice = .ok true := by decide
theorem allowed_hint : childIsAllowed .AplusQuestionnaireHints .AplusQuestionnaireHint = .ok true := by decide

/-- A text on one line is not empty. -/
theorem inset_nodes {ps : List Piece} (h : Inset (piecesSource ps)) : (ps.map Piece.node).isEmpty = false := by
  cases ps with
  | nil => obtain ⟨⟨c, hc, _⟩, _⟩ := h; cases hc
  | cons => rfl

/-- A text on one line does not move the cursor. -/
theorem Pos.inlineLine (h : Pos E S c0 s k fs lines) {ps : List Piece} (hp : Pieces ps) (hi : Inset (piecesSource ps)) :
    Does E S c0 (P.inlineNone (piecesSource ps)) s (ps.map Piece.node) k fs lines := by
  have := h.inline hp
  rwa [List.count_eq_zero_of_not_mem hi.2] at this

theorem choice_get {c : Choice} (i : Nat) : let m : Match := ⟨indentLine i c.text, [], c.caps i⟩
    m.getD .answer = piecesSource c.answer ∧ m.getD .label = c.label ∧ (m.get .correct).isSome = (c.mark == some .right) ∧
    (m.get .preSelected).isSome = c.selected ∧ (m.get .neutral).isSome = (c.mark == some .neutral) := by
  simp only [Match.getD, Match.get, Choice.caps]
  refine ⟨by simp, by simp, ?_, ?_, ?_⟩ <;>
    (cases c.selected <;> cases c.mark with
      | none => simp
      | some m => cases m <;> simp)

/-- One choice. -/
theorem Pos.choice {c : Choice} {any : Bool} (h : Pos E S c0 s k (f :: fs) lines) (hc : c.Ok any) (i : Nat)
    (hf : f.data.kind = .AplusPickChoices) :
    Does E S c0 (pushChoice ⟨indentLine i c.text, [], c.caps i⟩) s () (k + 1) (f.add [c.shape] :: fs) (lines.drop 1) := by
  obtain ⟨e1, e2, e3, e4, e5⟩ := choice_get (c := c) i
  unfold pushChoice
  simp only [e1, e2, e3, e4, e5, hc.answer.not_blank, Bool.false_eq_true, if_false]
  refine (h.inlineLine hc.pieces hc.answer).bind fun s1 h1 => ?_
  rw [inset_nodes hc.answer]
  simp only [Bool.false_eq_true, if_false]
  obtain ⟨t1, t2, t3, g1, g2, g3, g4⟩ := h1.entry (data := .AplusPickChoice c.label (c.mark == some .right) c.selected (c.mark == some .neutral))
    (nodes := c.answer.map Piece.node) (by rw [hf]; exact allowed_choice) simple_choice rfl (by
      intro n hn
      obtain ⟨r, _, rfl⟩ := List.mem_map.mp hn
      exact piece_inline .AplusPickChoice (by simp) r)
  obtain ⟨s4, g5, g6⟩ := g4.advance 1
  refine ⟨s4, by simp only [Bind.bind, P.bind, g1, g2, g3, g5], ?_⟩
  rw [pieces_shapes] at g6
  exact g6

/-- All choices. -/
theorem Pos.choices {any : Bool} {i : Nat} {rest : List Str} (hr : ∀ l, rest.head? = some l → indentOf l = i → (choicePattern any).captures l = none) :
    ∀ {cs : List Choice} {n : Nat} {s : PS} {k : Nat} {f : Frame}, cs.length ≤ n → (∀ c ∈ cs, c.Ok any) → f.data.kind = .AplusPickChoices →
      Pos E S c0 s k (f :: fs) (cs.map (fun c => indentLine i c.text) ++ rest) →
      Does E S c0 (Rustla.choices E (choicePattern any) i n) s () (k + cs.length) (f.add (cs.map Choice.shape) :: fs) rest
  | [], 0, s, k, f, _, _, _, h => by rw [List.map_nil, Frame.add_nil]; exact h.pure ()
  | [], n + 1, s, k, f, _, _, _, h => by
    rw [List.map_nil, Frame.add_nil]
    unfold Rustla.choices
    refine (h.offset).bind fun s1 h1 => ?_
    cases rest with
    | nil =>
      have : E.src[s.cursor.relativeOffset]? = none := by
        have := congrArg (·[0]?) h.here
        simpa using this
      rw [this]
      exact h1.pure ()
    | cons l rest =>
      rw [h.line]
      simp only
      by_cases hi : indentOf l = i
      · rw [if_neg (by simpa using hi), hr l rfl hi]
        exact h1.pure ()
      · rw [if_pos hi]
        exact h1.pure ()
  | c :: cs, 0, s, k, f, hn, _, _, h => by simp at hn
  | c :: cs, n + 1, s, k, f, hn, hc, hf, h => by
    unfold Rustla.choices
    refine (h.offset).bind fun s1 h1 => ?_
    rw [h.line (l := indentLine i c.text)]
    obtain ⟨x, t, hx, hw⟩ := choice_start (hc c (by simp))
    have hi : indentOf (indentLine i c.text) = i := by rw [hx]; exact indentOf_indented hw i
    simp only
    rw [if_neg (by simpa using hi), choice_captures (hc c (by simp)) i]
    simp only
    refine (h1.choice (hc c (by simp)) i hf).bind fun s2 h2 => ?_
    have := Pos.choices hr (cs := cs) (n := n) (f := f.add [c.shape]) (by simpa using hn) (fun x hx => hc x (by simp [hx])) hf h2
    rw [Frame.add_add] at this
    simp only [List.length_cons, List.map_cons]
    rw [show k + (cs.length + 1) = k + 1 + cs.length by omega]
    exact this

theorem hint_get {h : Hint} {type : AplusQuestionnaireType} (hok : h.Ok type) (i : Nat) :
    let m : Match := ⟨indentLine i h.line, [], h.caps type i⟩
    trim (m.getD .hint) = piecesSource h.text ∧ hintLabel type m = h.label ∧ (m.get .showNotAnswered).isSome = h.missing := by
  simp only [Match.getD, Match.get, Hint.caps, hintLabel]
  refine ⟨by simp [hok.snug.trim], ?_, ?_⟩
  · by_cases ht : type = .FreeText
    · simp only [ht, if_true]
      obtain ⟨⟨a, ha, hwa⟩, _⟩ := hok.label.1.1
      obtain ⟨b, hb, hwb⟩ := hok.label.1.2
      simpa using trim_ends (w := [' ']) ha hwa hb hwb (by simp [show isWs ' ' = true by decide])
    · simp [ht]
  · cases h.missing <;> simp

/-- One hint. -/
theorem Pos.hint {h : Hint} {type : AplusQuestionnaireType} (hp : Pos E S c0 s k (f :: fs) lines) (hok : h.Ok type) (i : Nat)
    (hf : f.data.kind = .AplusQuestionnaireHints) :
    Does E S c0 (pushHint type (hintLabel type ⟨indentLine i h.line, [], h.caps type i⟩) ⟨indentLine i h.line, [], h.caps type i⟩) s ()
      (k + 1) (f.add [h.shape type] :: fs) (lines.drop 1) := by
  obtain ⟨e1, e2, e3⟩ := hint_get hok i
  have hne : (piecesSource h.text).isEmpty = false := by
    obtain ⟨c, t, e, _⟩ := hok.snug.1.cons; rw [e]; rfl
  unfold pushHint
  simp only [e1, e2, e3, hne, Bool.false_eq_true, if_false]
  refine (hp.inlineLine hok.pieces hok.snug.1).bind fun s1 h1 => ?_
  rw [inset_nodes hok.snug.1]
  simp only [Bool.false_eq_true, if_false]
  obtain ⟨t1, t2, t3, g1, g2, g3, g4⟩ := h1.entry (data := .AplusQuestionnaireHint h.label h.missing type)
    (nodes := h.text.map Piece.node) (by rw [hf]; exact allowed_hint) simple_hint rfl (by
      intro n hn
      obtain ⟨r, _, rfl⟩ := List.mem_map.mp hn
      exact piece_inline .AplusQuestionnaireHint (by simp) r)
  obtain ⟨s4, g5, g6⟩ := g4.advance 1
  refine ⟨s4, by simp only [Bind.bind, P.bind, g1, g2, g3, g5], ?_⟩
  rw [pieces_shapes] at g6
  exact g6

/-- All hints. -/
theorem Pos.hints {type : AplusQuestionnaireType} {i : Nat} {rest : List Str}
    (hr : ∀ l, rest.head? = some l → indentOf l ≠ i ∧ l ≠ [] ∨ (hintPattern type).captures l = none) :
    ∀ {hs : List Hint} {n : Nat} {s : PS} {k : Nat} {f : Frame}, hs.length ≤ n → (∀ c ∈ hs, c.Ok type) →
      f.data.kind = .AplusQuestionnaireHints → Pos E S c0 s k (f :: fs) (hs.map (fun c => indentLine i c.line) ++ rest) →
      Does E S c0 (Rustla.hints E type (hintPattern type) i n) s () (k + hs.length) (f.add (hs.map (Hint.shape type)) :: fs) rest
  | [], 0, s, k, f, _, _, _, h => by rw [List.map_nil, Frame.add_nil]; exact h.pure ()
  | [], n + 1, s, k, f, _, _, _, h => by
    rw [List.map_nil, Frame.add_nil]
    unfold Rustla.hints
    refine (h.offset).bind fun s1 h1 => ?_
    cases rest with
    | nil =>
      have : E.src[s.cursor.relativeOffset]? = none := by
        have := congrArg (·[0]?) h.here
        simpa using this
      rw [this]
      exact h1.pure ()
    | cons l rest =>
      rw [h.line]
      simp only
      rcases hr l rfl with ⟨h2, h3⟩ | h2
      · have : hintIndent type i l = indentOf l := by
          unfold hintIndent
          rw [if_neg]
          rintro ⟨_, h4⟩
          exact h3 (List.isEmpty_iff.mp h4)
        rw [this, if_pos h2]
        exact h1.pure ()
      · split
        · exact h1.pure ()
        · rw [h2]; exact h1.pure ()
  | c :: cs, 0, s, k, f, hn, _, _, h => by simp at hn
  | c :: cs, n + 1, s, k, f, hn, hc, hf, h => by
    unfold Rustla.hints
    refine (h.offset).bind fun s1 h1 => ?_
    rw [h.line (l := indentLine i c.line)]
    obtain ⟨x, t, hx, hw⟩ := hint_start (hc c (by simp))
    have hi : hintIndent type i (indentLine i c.line) = i := by
      have h1 : indentOf (indentLine i c.line) = i := by rw [hx]; exact indentOf_indented hw i
      unfold hintIndent
      split
      · rfl
      · exact h1
    simp only
    rw [if_neg (by simpa using hi), hint_captures (hc c (by simp)) i]
    simp only
    refine (h1.hint (hc c (by simp)) i hf).bind fun s2 h2 => ?_
    have := Pos.hints hr (hs := cs) (n := n) (f := f.add [c.shape type]) (by simpa using hn) (fun x hx => hc x (by simp [hx])) hf h2
    rw [Frame.add_add] at this
    simp only [List.length_cons, List.map_cons]
    rw [show k + (cs.length + 1) = k + 1 + cs.length by omega]
    exact this

/-- The nodes of questions. -/
def questionKinds : List Kind := [.AplusPickOne, .AplusPickAny, .AplusFreeText]

theorem question_parts {k : Kind} (h : k ∈ questionKinds) : childIsAllowed .AplusQuestionnaire k = .ok true ∧ Simple k ∧
    k.hasChildren = true ∧ childIsAllowed k .AplusQuestionnaireHints = .ok true ∧ childIsAllowed k .Paragraph = .ok true := by
  have : ∀ k ∈ questionKinds, childIsAllowed .AplusQuestionnaire k = .ok true ∧ Simple k ∧
    k.hasChildren = true ∧ childIsAllowed k .AplusQuestionnaireHints = .ok true ∧ childIsAllowed k .Paragraph = .ok true := by
    unfold Simple; decide
  exact this k h

theorem choices_parts {k : Kind} (h : k = .AplusPickOne ∨ k = .AplusPickAny) : childIsAllowed k .AplusPickChoices = .ok true := by
  rcases h with rfl | rfl <;> decide

/-- A blank line is no hint. -/
theorem blank_no_hint {l : Str} (h : isBlank l = true) (type : AplusQuestionnaireType) : (hintPattern type).captures l = none := by
  rw [Re.captures_none_iff, List.eq_nil_iff_forall_not_mem]
  intro q hq
  have hws := (isBlank_iff l).mp h
  have key : ∀ {s : Str} {q : Str × Caps} {cs : Caps} (p : Char → Bool), (∀ c ∈ s, isWs c = true) →
      q ∈ (Re.seq (.cap .label (Re.plus true (.cls p))) hintEnd).run s cs → False := by
    intro s q cs p hs hq
    obtain ⟨q1, h1, h2⟩ := run_seq2 hq
    simp only [Re.run] at h1
    obtain ⟨q0, h6, rfl⟩ := List.mem_map.mp h1
    obtain ⟨w, _, _, hw⟩ := mem_run_plus h6
    have : '§' ∉ q0.1 := by
      intro hm
      have := hs '§' (by rw [hw]; simp [hm])
      exact absurd this (by decide)
    simp only [hint_dead this, List.not_mem_nil] at h2
  have hopt : ∀ {s : Str} {q : Str × Caps} {cs : Caps} (p : Char → Bool), (∀ c ∈ s, isWs c = true) →
      q ∈ (Re.seq (Re.opt (.cap .showNotAnswered (.chr '!'))) (Re.seq (.cap .label (Re.plus true (.cls p))) hintEnd)).run s cs → False := by
    intro s q cs p hs hq
    obtain ⟨q1, h1, h2⟩ := run_seq2 hq
    rcases opt_marked h1 with e | e
    · exact key p (by rw [← e]; exact hs) h2
    · exact absurd (hs '!' (by rw [e]; simp)) (by decide)
  have hall : ∀ p : Char → Bool, hintPattern type = .seq (.cap .g1 (.star true (.cls isWs)))
      (Re.seq (Re.opt (.cap .showNotAnswered (.chr '!'))) (Re.seq (.cap .label (Re.plus true (.cls p))) hintEnd)) → False := by
    intro p e
    rw [e] at hq
    obtain ⟨q1, h1, h2⟩ := run_seq2 hq
    simp only [Re.run] at h1
    obtain ⟨q0, h6, rfl⟩ := List.mem_map.mp h1
    obtain ⟨_, y, hy, _⟩ := starRun_rest h6
    refine hopt p ?_ h2
    intro c hc
    exact hws c (by rw [hy]; simp [show c ∈ q0.1 from hc])
  unfold hintPattern at hall
  by_cases ht : type = .FreeText
  · rw [if_pos ht] at hall; exact hall clsNotNewline rfl
  · rw [if_neg ht] at hall; exact hall nonWs rfl

theorem blank_no_choice {l : Str} (h : isBlank l = true) (any : Bool) : (choicePattern any).captures l = none := by
  rw [Re.captures_none_iff, List.eq_nil_iff_forall_not_mem]
  intro q hq
  have hws := (isBlank_iff l).mp h
  rw [choicePattern_eq] at hq
  obtain ⟨q1, h1, h2⟩ := run_seq2 hq
  obtain ⟨q2, h3, h4⟩ := run_seq2 h2
  obtain ⟨q3, h5, h6⟩ := run_seq2 h4
  simp only [Re.run] at h1
  obtain ⟨q0, h7, rfl⟩ := List.mem_map.mp h1
  obtain ⟨_, y, hy, _⟩ := starRun_rest h7
  obtain ⟨w, t, hw, _⟩ := marked_of_end h6
  have hm : '.' ∈ q0.1 := by
    have hq3 : '.' ∈ q3.1 := by rw [hw]; simp
    have hq2 : '.' ∈ q2.1 := by
      rcases marks_marked h5 with e | ⟨m, _, e⟩ <;> rw [e] <;> simp [hq3]
    have := opt_marked h3
    simp only at this
    rcases this with e | e <;> rw [e] <;> simp [hq2]
  exact absurd (hws '.' (by rw [hy]; simp [hm])) (by decide)

/-- What may follow a question: nothing, or a line that is not blank and has a smaller indentation. -/
theorem Low.not_blank {j : Nat} {ls : List Str} (h : Low j ls) : ∀ l, ls.head? = some l → isBlank l = false := fun l hl => (h l hl).1

theorem head_append_of_ne {α : Type} {a b : List α} (h : a ≠ []) : (a ++ b).head? = a.head? := by
  cases a with
  | nil => exact absurd rfl h
  | cons => rfl

/-- The end of a question: its hints. -/
theorem Pos.finish {type : AplusQuestionnaireType} {i : Nat} {H : Hints} {rest : List Str} {q e : Frame}
    (h : Pos E S c0 s k (q :: e :: fs) (H.lines i ++ rest)) (hok : H.Ok type) (hr : Low i rest) (hq : q.data.kind ∈ questionKinds) :
    Does E S c0 (finishQuestion E type (hintPattern type) i) s (.neither, none) (k + (H.lines i).length)
      (e.add [(q.add [H.shape type i]).shape] :: fs) rest := by
  have hlen : ∀ {s : PS} {k : Nat} {fs : List Frame} {ls : List Str}, Pos E S c0 s k fs ls → ls.length ≤ E.src.length := by
    intro s k fs ls h
    rw [← h.here]; simp
  have hhints : ∀ {s : PS} {k : Nat} {a b : List Str}, (∀ l ∈ a, isBlank l = true) → (H.hints = [] → a = []) →
      (H.hints ≠ [] → a ≠ []) →
      Pos E S c0 s k (⟨.Body, .AplusQuestionnaireHints i, [], []⟩ :: q :: e :: fs) (H.hints.map (fun x => indentLine i x.line) ++ (a ++ rest)) →
      Does E S c0 (do Rustla.hints E type (hintPattern type) i E.src.length; P.skipEmpty E.src; P.parent; P.parent; Pure.pure ((PushOrPop.neither, none) : Moves)) s
        (.neither, none) (k + H.hints.length + a.length) (e.add [(q.add [H.shape type i]).shape] :: fs) rest := by
    intro s k a _ ha hnil hne h
    refine (Pos.hints (hs := H.hints) ?_ ?_ hok.hints rfl h).bind fun s1 h1 => ?_
    · intro l hl
      by_cases hx : H.hints = []
      · rw [hnil hx] at hl
        obtain ⟨h2, h3⟩ := hr l hl
        refine .inl ⟨by omega, ?_⟩
        rintro rfl
        exact absurd h2 (by decide)
      · rw [head_append_of_ne (hne hx)] at hl
        exact .inr (blank_no_hint (ha l (List.mem_of_mem_head? hl)) type)
    · have := hlen h
      simp only [List.length_append, List.length_map] at this
      omega
    refine (h1.skip ha hr.not_blank).bind fun s2 h2 => ?_
    refine h2.close.bind fun s3 h3 => h3.close.bind fun s4 h4 => ?_
    have e1 : (⟨.Body, .AplusQuestionnaireHints i, [], []⟩ : Frame).add (H.hints.map (Hint.shape type)) =
        ⟨.Body, .AplusQuestionnaireHints i, H.hints.map (Hint.shape type), []⟩ := by simp [Frame.add]
    rw [e1] at h4
    exact h4.pure _
  unfold finishQuestion Hints.lines at *
  by_cases hx : H.hints = []
  · rw [hx] at h ⊢
    have e1 : H.gap ++ [].map (fun x => indentLine i (Hint.line x)) ++ H.after ++ rest = (H.gap ++ H.after) ++ rest := by simp
    rw [e1] at h
    refine (h.skip (by
      intro l hl
      rcases List.mem_append.mp hl with hl | hl
      · exact hok.gap l hl
      · exact hok.after l hl) hr.not_blank).bind fun s1 h1 => ?_
    refine (h1.open (data := .AplusQuestionnaireHints i) .Body (question_parts hq).2.2.2.1 simple_hints rfl rfl).bind fun s2 h2 => ?_
    have := hhints (a := []) (b := []) (by simp) (fun _ => rfl) (fun h => absurd hx h) (by rw [hx]; exact h2)
    rw [hx] at this
    simp only [List.length_nil, Nat.add_zero] at this
    simpa using this
  · have e1 : H.gap ++ H.hints.map (fun x => indentLine i (Hint.line x)) ++ H.after ++ rest =
        H.gap ++ (H.hints.map (fun x => indentLine i (Hint.line x)) ++ (H.after ++ rest)) := by simp
    rw [e1] at h
    refine (h.skip hok.gap (by
      intro l hl
      obtain ⟨y, ys, hy⟩ := List.exists_cons_of_ne_nil hx
      rw [hy] at hl
      obtain rfl : indentLine i y.line = l := by simpa using hl
      obtain ⟨x, t, hxy, hw⟩ := hint_start (hok.hints y (by rw [hy]; simp))
      rw [hxy]; exact indented_not_blank hw i)).bind fun s1 h1 => ?_
    refine (h1.open (data := .AplusQuestionnaireHints i) .Body (question_parts hq).2.2.2.1 simple_hints rfl rfl).bind fun s2 h2 => ?_
    have := hhints (a := H.after) (b := []) hok.after (fun h => absurd h hx) hok.ends h2
    have e2 : k + (H.gap ++ H.hints.map (fun x => indentLine i (Hint.line x)) ++ H.after).length =
        k + H.gap.length + H.hints.length + H.after.length := by simp; omega
    rw [e2]
    exact this

theorem Spine.kids {z : Zipper} (h : Spine z (f :: fs)) : ∃ cs, z.node.children = some cs ∧ shapesOf cs = f.done := by
  cases h with | mk hl _ => exact ⟨_, hl.2.1, hl.2.2.1⟩

/-- The choices of a question. -/
theorem Pos.allChoices {any : Bool} {i : Nat} {cs : List Choice} {rest : List Str} {q : Frame}
    (h : Pos E S c0 s k (q :: fs) (cs.map (fun c => indentLine i c.text) ++ rest)) (hne : cs ≠ []) (hc : ∀ c ∈ cs, c.Ok any)
    (hr : Stops rest) (hq : q.data.kind = .AplusPickOne ∨ q.data.kind = .AplusPickAny) :
    Does E S c0 (Rustla.allChoices E (choicePattern any) i) s () (k + cs.length)
      (q.add [.node (.AplusPickChoices i) (cs.map Choice.shape)] :: fs) rest := by
  unfold Rustla.allChoices
  refine (h.open (data := .AplusPickChoices i) .Body (choices_parts hq) simple_choices rfl rfl).bind fun s1 h1 => ?_
  refine (Pos.choices (cs := cs) (n := E.src.length) ?_ ?_ hc rfl h1).bind fun s2 h2 => ?_
  · intro l hl _
    exact blank_no_choice (hr l hl) any
  · have : (cs.map (fun c => indentLine i c.text) ++ rest).length ≤ E.src.length := by rw [← h.here]; simp
    simp only [List.length_append, List.length_map] at this
    omega
  have hd : Does E S c0 P.doc s2 s2.doc (k + cs.length) _ rest := ⟨s2, rfl, h2⟩
  refine hd.bind fun s3 h3 => ?_
  have hkids : (s2.doc.sharedChildren.getD []).isEmpty = false := by
    obtain ⟨ch, hc1, hc2⟩ := h2.spine.kids
    show (s2.doc.tree.node.children.getD []).isEmpty = false
    rw [hc1]
    cases ch with
    | nil =>
      obtain ⟨x, xs, e⟩ := List.exists_cons_of_ne_nil hne
      rw [e] at hc2
      simp [shapesOf, Frame.add] at hc2
    | cons => rfl
  rw [hkids]
  have e : (⟨.Body, .AplusPickChoices i, [], []⟩ : Frame).add (cs.map Choice.shape) = ⟨.Body, .AplusPickChoices i, cs.map Choice.shape, []⟩ := by
    simp [Frame.add]
  rw [e] at h3
  exact h3.close

/-! ## Directives -/

/-- The questionnaire with more points. -/
def Frame.earn (f : Frame) (p : Nat) : Frame := { f with data := addPoints p f.data }

theorem addPoints_kind (p : Nat) (x : NodeType) : (addPoints p x).kind = x.kind := by cases x <;> rfl

theorem addPoints_indent (p : Nat) (x : NodeType) : (addPoints p x).bodyIndent = x.bodyIndent := by cases x <;> rfl

theorem simple_quiz : Simple .AplusQuestionnaire := ⟨by decide, by decide, by decide, by decide, by decide⟩

theorem Pos.earn {i : Nat} (h : Pos E S c0 s k (f :: fs) lines) (p : Nat) (hf : f.data.kind = .AplusQuestionnaire)
    (hi : f.data.bodyIndent = some i) : Does E S c0 (P.mapData (addPoints p)) s () k (f.earn p :: fs) lines :=
  h.mapData (by rw [hf]; exact simple_quiz) (by rw [addPoints_kind, hf]; exact simple_quiz) (by rw [addPoints_indent, hi]; rfl)

theorem Pos.arguments {d : Dir} {i b : Nat} {rest : List Str} (h : Pos E S c0 s k fs (d.lines i ++ rest)) (hd : d.Ok) (hr : Stops rest)
    (ha : d.arg ≠ []) :
    Does E S c0 (P.arguments E b (spaces i ++ d.head).length (isBlank d.arg)) s (some [d.arg]) (k + 1) fs
      (d.opts.map (fun o => indentLine (i + 3) (optionLine o)) ++ rest) := by
  refine ⟨{ s with cursor := s.cursor.incrementBy 1 }, by rw [scan_arguments hd h.here hr, Dir.args_some ha], ⟨?_, drop_incr h.here 1, h.spine, h.secs⟩⟩
  show s.cursor.incrementBy 1 = _
  rw [h.cursor, LineCursor.incrementBy_add]

theorem Pos.options {d : Dir} {i : Nat} {gap r : List Str} (h : Pos E S c0 s (k + 1) fs
    (d.opts.map (fun o => indentLine (i + 3) (optionLine o)) ++ (gap ++ r))) (hd : d.Ok) (hg : gap ≠ []) (hb : ∀ l ∈ gap, isBlank l = true) :
    ∃ gap' m, (∀ l ∈ gap', isBlank l = true) ∧ m + gap'.length = (d.lines i ++ gap).length ∧
      Does E S c0 (P.options E (i + 3)) s d.options (k + m) fs (gap' ++ r) := by
  have hr : Stops (gap ++ r) := by
    intro l hl
    rw [head_append_of_ne hg] at hl
    exact hb l (List.mem_of_mem_head? hl)
  have hopt := scan_options (b := i + 3) hd h.here hr (fun _ => rfl)
  have hcount : d.optionCount (gap ++ r) = if d.opts = [] then 0 else d.opts.length + 1 := by
    unfold Dir.optionCount
    rw [if_neg (show ¬ gap ++ r = [] by simp [hg])]
  obtain ⟨g, gs, rfl⟩ := List.exists_cons_of_ne_nil hg
  have hcur : (s.cursor.incrementBy (d.optionCount (g :: gs ++ r))) = c0.incrementBy (k + (1 + d.optionCount (g :: gs ++ r))) := by
    rw [h.cursor, LineCursor.incrementBy_add]; congr 1; omega
  by_cases ho : d.opts = []
  · rw [if_pos ho] at hcount
    refine ⟨g :: gs, 1, hb, by simp [Dir.lines, ho]; omega, ⟨_, hopt, ⟨?_, ?_, h.spine, h.secs⟩⟩⟩
    · show s.cursor.incrementBy _ = _
      rw [hcur, hcount]
    · show E.src.drop (s.cursor.incrementBy _).relativeOffset = _
      rw [drop_incr h.here, hcount, ho]; rfl
  · rw [if_neg ho] at hcount
    refine ⟨gs, 1 + d.opts.length + 1, fun l hl => hb l (by simp [hl]), by simp [Dir.lines]; omega, ⟨_, hopt, ⟨?_, ?_, h.spine, h.secs⟩⟩⟩
    · show s.cursor.incrementBy _ = _
      rw [hcur, hcount]; congr 1
    · show E.src.drop (s.cursor.incrementBy _).relativeOffset = _
      rw [drop_incr h.here, hcount]
      rw [List.drop_append, List.length_map, List.drop_of_length_le (by simp)]
      simp

/-- The indentation of the lines of a question: the line behind the marker is not looked at. -/
theorem Pos.body {d : Dir} {i : Nat} {gap r : List Str} {l : Str} (h : Pos E S c0 s k fs (d.lines i ++ (gap ++ l :: r))) (hg : gap ≠ [])
    (hb : ∀ l ∈ gap, isBlank l = true) (hl : isBlank l = false) (hi : indentOf l = i + 3) :
    indentOnSubsequentLines E.src (s.cursor.relativeOffset + 1) = some (i + 3) := by
  unfold indentOnSubsequentLines
  rw [Nat.add_assoc, ← List.drop_drop, h.here]
  obtain ⟨g, gs, rfl⟩ := List.exists_cons_of_ne_nil hg
  cases ho : d.opts with
  | nil =>
    have e : (d.lines i ++ (g :: gs ++ l :: r)).drop (1 + 1) = gs ++ l :: r := by unfold Dir.lines; rw [ho]; rfl
    rw [e, find_blanks fun x hx => hb x (by simp [hx]), List.find?_cons, hl]
    simp [hi]
  | cons o os =>
    have e : (d.lines i ++ (g :: gs ++ l :: r)).drop (1 + 1) =
        os.map (fun o => indentLine (i + 3) (optionLine o)) ++ (g :: gs ++ l :: r) := by unfold Dir.lines; rw [ho]; rfl
    rw [e]
    cases os with
    | nil => rw [List.map_nil, List.nil_append, find_blanks hb, List.find?_cons, hl]; simp [hi]
    | cons o' os =>
      rw [List.map_cons, List.cons_append, List.find?_cons, (option_indent (i + 3)).2]
      simp [option_indent (o := o') (i + 3)]

theorem number_arg {bits : Nat} {t : Str} (h : (parseUint bits t).isSome = true) : t ≠ [] ∧ parseUint bits t = some ((parseUint bits t).getD 0) := by
  obtain ⟨n, hn⟩ := Option.isSome_iff_exists.mp h
  refine ⟨?_, by rw [hn]; rfl⟩
  rintro rfl
  exact absurd h (by simp [parseUint])

theorem choices_front {any : Bool} {i : Nat} {cs : List Choice} {r : List Str} (hne : cs ≠ []) (hc : ∀ c ∈ cs, c.Ok any) :
    ∃ l ls, cs.map (fun c => indentLine i c.text) ++ r = l :: ls ∧ isBlank l = false ∧ indentOf l = i ∧
      (choicePattern any).isMatch l = true := by
  obtain ⟨c, cs, rfl⟩ := List.exists_cons_of_ne_nil hne
  obtain ⟨x, t, hx, hw⟩ := choice_start (hc c (by simp))
  refine ⟨_, _, rfl, ?_, ?_, (Re.isMatch_iff _ _).mpr ⟨_, choice_captures (hc c (by simp)) i⟩⟩
  · simp only [hx]; exact indented_not_blank hw i
  · simp only [hx]; exact indentOf_indented hw i

theorem task_front {t : Task} (ht : t.Ok) (i : Nat) (r : List Str) :
    ∃ l ls, t.lines.head? = some l ∧ t.lines.map (indentLine i) ++ (t.gap ++ r) = indentLine i l :: ls ∧ isBlank (indentLine i l) = false ∧
      indentOf (indentLine i l) = i ∧ Inset l := by
  obtain ⟨l, ls, hl⟩ := List.exists_cons_of_ne_nil ht.prose.notEmpty
  have hi := ht.prose.lines l (by rw [hl]; simp)
  obtain ⟨c, s, rfl, hc⟩ := hi.cons
  refine ⟨c :: s, _, by rw [hl]; rfl, by rw [hl]; rfl, indented_not_blank hc i, indentOf_indented hc i, hi⟩

/-- The content of a question with choices. -/
theorem content_front {any : Bool} {i : Nat} {task : Option Task} {cs : List Choice} {r : List Str} (hne : cs ≠ []) (hc : ∀ c ∈ cs, c.Ok any)
    (ht : ∀ t, task = some t → t.Ok) :
    ∃ l ls, taskSource i task ++ (cs.map (fun c => indentLine i c.text) ++ r) = l :: ls ∧ isBlank l = false ∧ indentOf l = i := by
  cases task with
  | none =>
    obtain ⟨l, ls, h1, h2, h3, _⟩ := choices_front (i := i) (r := r) hne hc
    exact ⟨l, ls, h1, h2, h3⟩
  | some t =>
    obtain ⟨l, ls, _, h1, h2, h3, _⟩ := task_front (ht t rfl) i (cs.map (fun c => indentLine i c.text) ++ r)
    exact ⟨_, ls, by rw [← h1]; simp [taskSource, Task.source], h2, h3⟩

/-- The nodes of the assignment. -/
def taskNodes (task : Option Task) : List NodeType := (task.map fun t => t.pieces.map Piece.node).getD []

/-- The blank lines behind the assignment. -/
def taskGap (task : Option Task) : List Str := (task.map Task.gap).getD []

/-- The number of lines of the assignment. -/
def taskHeight (task : Option Task) : Nat := (task.map fun t => t.lines.length).getD 0

theorem Pos.start {any : Bool} {i : Nat} {task : Option Task} {cs : List Choice} {r : List Str}
    (h : Pos E S c0 s k fs (taskSource i task ++ (cs.map (fun c => indentLine i c.text) ++ r))) (hne : cs ≠ []) (hc : ∀ c ∈ cs, c.Ok any)
    (ht : ∀ t, task = some t → t.Ok ∧ ∀ l, t.lines.head? = some l → ¬ ChoiceMarked l) :
    ∃ l, E.src[s.cursor.relativeOffset]? = some l ∧
      Does E S c0 (startNodes E (choicePattern any) i l) s (taskNodes task) (k + taskHeight task) fs
        (taskGap task ++ (cs.map (fun c => indentLine i c.text) ++ r)) := by
  cases task with
  | none =>
    obtain ⟨l, ls, h1, _, _, h3⟩ := choices_front (i := i) (r := r) hne hc
    have h' := h
    rw [show taskSource i none = [] from rfl, List.nil_append, h1] at h'
    refine ⟨l, h'.line, ?_⟩
    unfold startNodes
    rw [if_pos h3]
    exact h.pure []
  | some t =>
    obtain ⟨hok, hn⟩ := ht t rfl
    have e : taskSource i (some t) ++ (cs.map (fun c => indentLine i c.text) ++ r) =
        t.lines.map (indentLine i) ++ (t.gap ++ (cs.map (fun c => indentLine i c.text) ++ r)) := by simp [taskSource, Task.source]
    rw [e] at h
    obtain ⟨l, ls, h0, h1, h2, h3, h4⟩ := task_front hok i (cs.map (fun c => indentLine i c.text) ++ r)
    have h' := h
    rw [h1] at h'
    refine ⟨_, h'.line, ?_⟩
    unfold startNodes
    rw [if_neg (by rw [not_choice h4 (hn l h0) i]; simp)]
    refine h.assignment hok.prose ?_
    intro x hx
    rw [head_append_of_ne hok.gap.1] at hx
    exact hok.gap.2 x (List.mem_of_mem_head? hx)

theorem Pos.task {i : Nat} {task : Option Task} {q : Frame} (h : Pos E S c0 s k (q :: fs) lines)
    (ht : ∀ t, task = some t → t.Ok) (hq : q.data.kind ∈ questionKinds) :
    Does E S c0 (optionalParagraph i (taskNodes task)) s () k
      (q.add (task.map fun t => paragraphShape i t.pieces).toList :: fs) lines := by
  unfold optionalParagraph
  cases task with
  | none => rw [if_pos (show (taskNodes none).isEmpty = true from rfl)]; simp only [Option.map_none, Option.toList_none, Frame.add_nil]; exact h.pure ()
  | some t =>
    have : (taskNodes (some t)).isEmpty = false := (ht t rfl).prose.nodes
    rw [this]
    exact h.paragraph i t.pieces (question_parts hq).2.2.2.2

theorem taskGap_blank {task : Option Task} (ht : ∀ t, task = some t → t.Ok) : ∀ l ∈ taskGap task, isBlank l = true := by
  cases task with
  | none => intro l hl; cases hl
  | some t => exact (ht t rfl).gap.2

theorem task_length (i : Nat) (task : Option Task) : (taskSource i task).length = taskHeight task + (taskGap task).length := by
  cases task with
  | none => rfl
  | some t => simp [taskSource, Task.source, taskHeight, taskGap]

theorem hints_stops {type : AplusQuestionnaireType} {H : Hints} (h : H.Ok type) (i : Nat) (r : List Str) : Stops (H.lines i ++ r) := by
  intro l hl
  have : H.lines i ++ r = H.gap ++ (H.hints.map (fun x => indentLine i x.line) ++ H.after ++ r) := by simp [Hints.lines]
  rw [this, head_append_of_ne h.apart] at hl
  exact h.gap l (List.mem_of_mem_head? hl)

theorem gap_stops {gap r : List Str} (hg : gap ≠ []) (hb : ∀ l ∈ gap, isBlank l = true) : Stops (gap ++ r) := by
  intro l hl
  rw [head_append_of_ne hg] at hl
  exact hb l (List.mem_of_mem_head? hl)

/-- The frame of a question before it is left. -/
theorem question_shape {q : NodeType} (hq : Simple q.kind) (ss : List Shape) (st : State) : (⟨st, q, ss, []⟩ : Frame).shape = .node q ss := by
  unfold Frame.shape Frame.labels
  rw [ownLabels_simple hq]; rfl

theorem Pos.pickOne {d : Dir} {gap : List Str} {task : Option Task} {cs : List Choice} {H : Hints} {rest : List Str} {i : Nat}
    (h : Pos E S c0 s k (f :: fs) ((Entry.pick false d gap task cs H).lines i ++ rest)) (hok : (Entry.pick false d gap task cs H).Ok)
    (hr : Low (i + 1) rest) (hf : f.data.kind = .AplusQuestionnaire) (hi : f.data.bodyIndent = some i) :
    Does E S c0 (parsePickOne E (i + 3) (spaces i ++ d.head).length (isBlank d.arg)) s (.neither, none)
      (k + ((Entry.pick false d gap task cs H).lines i).length)
      ((f.earn (Entry.pick false d gap task cs H).points).add [(Entry.pick false d gap task cs H).shape i] :: fs) rest := by
  obtain ⟨hd, _, hnum, _, hg, hb, ht, hne, hc, hh⟩ := hok
  have ht' : ∀ t, task = some t → t.Ok := fun t e => (ht t e).1
  obtain ⟨ha, hn⟩ := number_arg hnum
  have e : (Entry.pick false d gap task cs H).lines i ++ rest = d.lines i ++ (gap ++ (taskSource (i + 3) task ++
      (cs.map (fun c => indentLine (i + 3) c.text) ++ (H.lines (i + 3) ++ rest)))) := by simp [Entry.lines]
  rw [e] at h
  unfold parsePickOne
  refine (h.arguments hd (gap_stops hg hb) ha).bind fun s1 h1 => ?_
  refine (h1.required rfl).bind fun s2 h2 => ?_
  refine (h2.required (x := parseUint 32 (joinWith [' '] [d.arg])) hn).bind fun s3 h3 => ?_
  refine (h3.earn _ hf hi).bind fun s4 h4 => ?_
  obtain ⟨gap', m, hb', hm, hopt⟩ := h4.options hd hg hb
  refine hopt.bind fun s5 h5 => ?_
  obtain ⟨l, ls, hl1, hl2, hl3⟩ := content_front (i := i + 3) (r := H.lines (i + 3) ++ rest) hne hc ht'
  have hfront : ∀ x, (taskSource (i + 3) task ++ (cs.map (fun c => indentLine (i + 3) c.text) ++ (H.lines (i + 3) ++ rest))).head? = some x →
      isBlank x = false := by
    intro x hx; rw [hl1] at hx; cases hx; exact hl2
  refine (h5.skip hb' hfront).bind fun s6 h6 => ?_
  simp only [Dir.optionOf]
  have hkind : Kind.AplusPickOne ∈ questionKinds := by decide
  refine (h6.open (data := .AplusPickOne (i + 3) ((parseUint 32 d.arg).getD 0) (d.get (str! "class")) (d.get (str! "required")).isSome
    (d.get (str! "key")) (d.get (str! "dropdown")).isSome) .Body
    (by show childIsAllowed (addPoints _ f.data).kind _ = _; rw [addPoints_kind, hf]; exact (question_parts hkind).1)
    (question_parts hkind).2.1 rfl rfl).bind fun s7 h7 => ?_
  refine (h7.skip_none hfront).bind fun s8 h8 => ?_
  refine h8.offset.bind fun s9 h9 => ?_
  obtain ⟨x, hx1, hx2⟩ := h8.start hne hc ht
  refine (h9.required hx1).bind fun s10 h10 => ?_
  obtain ⟨x', hx1', hx2'⟩ := h10.start hne hc ht
  have hcur : s8.cursor = s10.cursor := h8.cursor.trans h10.cursor.symm
  obtain rfl : x = x' := by rw [hcur] at hx1; exact Option.some.inj (hx1.symm.trans hx1')
  refine hx2'.bind fun s11 h11 => ?_
  obtain ⟨y, ys, hy1, hy2, _, _⟩ := choices_front (i := i + 3) (r := H.lines (i + 3) ++ rest) hne hc
  have hcf : ∀ x, (cs.map (fun c => indentLine (i + 3) c.text) ++ (H.lines (i + 3) ++ rest)).head? = some x → isBlank x = false := by
    intro x hx; rw [hy1] at hx; cases hx; exact hy2
  refine (h11.skip (taskGap_blank ht') hcf).bind fun s12 h12 => ?_
  refine (h12.task ht' hkind).bind fun s13 h13 => ?_
  refine (h13.skip_none hcf).bind fun s14 h14 => ?_
  refine (Pos.allChoices (any := false) h14 hne hc (hints_stops hh _ _) (.inl rfl)).bind fun s15 h15 => ?_
  have := h15.finish hh (hr.mono (by omega)) hkind
  have e2 : k + m + gap'.length + taskHeight task + (taskGap task).length + cs.length + (H.lines (i + 3)).length =
      k + ((Entry.pick false d gap task cs H).lines i).length := by
    have := task_length (i + 3) task
    simp only [Entry.lines, List.length_append, List.length_map] at hm ⊢
    omega
  rw [e2] at this
  have e3 : ((((⟨.Body, .AplusPickOne (i + 3) ((parseUint 32 d.arg).getD 0) (d.get (str! "class")) (d.get (str! "required")).isSome
    (d.get (str! "key")) (d.get (str! "dropdown")).isSome, [], []⟩ : Frame).add (task.map fun t => paragraphShape (i + 3) t.pieces).toList).add
      [.node (.AplusPickChoices (i + 3)) (cs.map Choice.shape)]).add [H.shape .PickOne (i + 3)]).shape =
      (Entry.pick false d gap task cs H).shape i := by
    rw [Frame.add_add, Frame.add_add]
    show Frame.shape ⟨_, _, _, _⟩ = _
    refine (question_shape ?_ _ _).trans ?_
    · exact (question_parts hkind).2.1
    simp [Entry.shape, pickNode, pickType, Dir.has]
  rw [← e3]
  exact this

theorem count_read {d : Dir} (h : d.has (str! "randomized") = true → d.has (str! "correct-count") = true →
    (d.number 32 (str! "correct-count")).isSome = true) :
    correctCount (d.get (str! "randomized")) (d.get (str! "correct-count")) =
      some (if d.has (str! "randomized") && d.has (str! "correct-count") then d.number 32 (str! "correct-count") else none) := by
  unfold Dir.has Dir.number at *
  cases h1 : d.get (str! "randomized") with
  | none => rfl
  | some x =>
    cases h2 : d.get (str! "correct-count") with
    | none => rfl
    | some y =>
      rw [h1, h2] at h
      obtain ⟨n, hn⟩ := Option.isSome_iff_exists.mp (h rfl rfl)
      simp only [correctCount, Option.isSome_some, Bool.and_true, if_true, Option.bind_some] at hn ⊢
      rw [hn]; rfl

theorem Pos.pickAny {d : Dir} {gap : List Str} {task : Option Task} {cs : List Choice} {H : Hints} {rest : List Str} {i : Nat}
    (h : Pos E S c0 s k (f :: fs) ((Entry.pick true d gap task cs H).lines i ++ rest)) (hok : (Entry.pick true d gap task cs H).Ok)
    (hr : Low (i + 1) rest) (hf : f.data.kind = .AplusQuestionnaire) (hi : f.data.bodyIndent = some i) :
    Does E S c0 (parsePickAny E (i + 3) (spaces i ++ d.head).length (isBlank d.arg)) s (.neither, none)
      (k + ((Entry.pick true d gap task cs H).lines i).length)
      ((f.earn (Entry.pick true d gap task cs H).points).add [(Entry.pick true d gap task cs H).shape i] :: fs) rest := by
  obtain ⟨hd, _, hnum, hcount, hg, hb, ht, hne, hc, hh⟩ := hok
  have ht' : ∀ t, task = some t → t.Ok := fun t e => (ht t e).1
  obtain ⟨ha, hn⟩ := number_arg hnum
  have e : (Entry.pick true d gap task cs H).lines i ++ rest = d.lines i ++ (gap ++ (taskSource (i + 3) task ++
      (cs.map (fun c => indentLine (i + 3) c.text) ++ (H.lines (i + 3) ++ rest)))) := by simp [Entry.lines]
  rw [e] at h
  unfold parsePickAny
  refine (h.arguments hd (gap_stops hg hb) ha).bind fun s1 h1 => ?_
  refine (h1.required rfl).bind fun s2 h2 => ?_
  refine (h2.required (x := parseUint 32 (joinWith [' '] [d.arg])) hn).bind fun s3 h3 => ?_
  refine (h3.earn _ hf hi).bind fun s4 h4 => ?_
  obtain ⟨gap', m, hb', hm, hopt⟩ := h4.options hd hg hb
  refine hopt.bind fun s5 h5 => ?_
  obtain ⟨l, ls, hl1, hl2, hl3⟩ := content_front (i := i + 3) (r := H.lines (i + 3) ++ rest) hne hc ht'
  have hfront : ∀ x, (taskSource (i + 3) task ++ (cs.map (fun c => indentLine (i + 3) c.text) ++ (H.lines (i + 3) ++ rest))).head? = some x →
      isBlank x = false := by
    intro x hx; rw [hl1] at hx; cases hx; exact hl2
  simp only [Dir.optionOf]
  refine (h5.required (count_read (hcount rfl))).bind fun s6 h6 => ?_
  have hkind : Kind.AplusPickAny ∈ questionKinds := by decide
  refine (h6.open (data := .AplusPickAny (i + 3) ((parseUint 32 d.arg).getD 0) (d.get (str! "class")) (d.get (str! "required")).isSome
    (d.get (str! "key")) (d.get (str! "partial-points")).isSome
    ((d.get (str! "randomized")).isSome && (d.get (str! "correct-count")).isSome)
    (if d.has (str! "randomized") && d.has (str! "correct-count") then d.number 32 (str! "correct-count") else none)
    (d.get (str! "preserve-questions-between-attempts")).isSome) .Body
    (by show childIsAllowed (addPoints _ f.data).kind _ = _; rw [addPoints_kind, hf]; exact (question_parts hkind).1)
    (question_parts hkind).2.1 rfl rfl).bind fun s7 h7 => ?_
  refine (h7.skip hb' hfront).bind fun s8 h8 => ?_
  refine h8.offset.bind fun s9 h9 => ?_
  obtain ⟨x, hx1, hx2⟩ := h8.start hne hc ht
  refine (h9.required hx1).bind fun s10 h10 => ?_
  obtain ⟨x', hx1', hx2'⟩ := h10.start hne hc ht
  have hcur : s8.cursor = s10.cursor := h8.cursor.trans h10.cursor.symm
  obtain rfl : x = x' := by rw [hcur] at hx1; exact Option.some.inj (hx1.symm.trans hx1')
  refine hx2'.bind fun s11 h11 => ?_
  obtain ⟨y, ys, hy1, hy2, _, _⟩ := choices_front (i := i + 3) (r := H.lines (i + 3) ++ rest) hne hc
  have hcf : ∀ x, (cs.map (fun c => indentLine (i + 3) c.text) ++ (H.lines (i + 3) ++ rest)).head? = some x → isBlank x = false := by
    intro x hx; rw [hy1] at hx; cases hx; exact hy2
  refine (h11.task ht' hkind).bind fun s13 h13 => ?_
  refine (h13.skip (taskGap_blank ht') hcf).bind fun s14 h14 => ?_
  refine (Pos.allChoices (any := true) h14 hne hc (hints_stops hh _ _) (.inr rfl)).bind fun s15 h15 => ?_
  have := h15.finish hh (hr.mono (by omega)) hkind
  have e2 : k + m + gap'.length + taskHeight task + (taskGap task).length + cs.length + (H.lines (i + 3)).length =
      k + ((Entry.pick true d gap task cs H).lines i).length := by
    have := task_length (i + 3) task
    simp only [Entry.lines, List.length_append, List.length_map] at hm ⊢
    omega
  rw [e2] at this
  have e3 : ((((⟨.Body, .AplusPickAny (i + 3) ((parseUint 32 d.arg).getD 0) (d.get (str! "class")) (d.get (str! "required")).isSome
    (d.get (str! "key")) (d.get (str! "partial-points")).isSome
    ((d.get (str! "randomized")).isSome && (d.get (str! "correct-count")).isSome)
    (if d.has (str! "randomized") && d.has (str! "correct-count") then d.number 32 (str! "correct-count") else none)
    (d.get (str! "preserve-questions-between-attempts")).isSome, [], []⟩ : Frame).add (task.map fun t => paragraphShape (i + 3) t.pieces).toList).add
      [.node (.AplusPickChoices (i + 3)) (cs.map Choice.shape)]).add [H.shape .PickAny (i + 3)]).shape =
      (Entry.pick true d gap task cs H).shape i := by
    rw [Frame.add_add, Frame.add_add]
    show Frame.shape ⟨_, _, _, _⟩ = _
    refine (question_shape ?_ _ _).trans ?_
    · exact (question_parts hkind).2.1
    simp [Entry.shape, pickNode, pickType, Dir.has]
  rw [← e3]
  exact this

theorem splitWs_free {points method : Str} (hp : points ≠ []) (h1 : ∀ c ∈ points, isWs c = false) (h2 : ∀ c ∈ method, isWs c = false) :
    (splitWs (points ++ behind method))[0]? = some points ∧ (splitWs (points ++ behind method))[1]?.getD [] = method := by
  have key : ∀ (w t cur : Str), (∀ c ∈ w, isWs c = false) → splitWsAux (w ++ t) cur = splitWsAux t (w.reverse ++ cur) := by
    intro w t
    induction w with
    | nil => intro cur _; rfl
    | cons c w ih =>
      intro cur h
      rw [List.cons_append]
      conv => lhs; unfold splitWsAux
      simp only [h c (by simp), Bool.false_eq_true, if_false]
      rw [ih _ fun x hx => h x (by simp [hx])]
      simp
  unfold splitWs behind
  rw [key _ _ _ h1, List.append_nil]
  have hrev : points.reverse ≠ [] := by simpa using hp
  by_cases hm : method = []
  · rw [if_pos hm, hm]
    unfold splitWsAux
    cases hr : points.reverse with
    | nil => exact absurd hr hrev
    | cons c r => rw [← hr]; simp [hp]
  · rw [if_neg hm]
    have e : splitWsAux (' ' :: method) points.reverse = points :: splitWsAux method [] := by
      conv => lhs; unfold splitWsAux
      simp [show isWs ' ' = true by decide, hp]
    rw [e]
    have := key method [] [] h2
    simp only [List.append_nil] at this
    rw [this]
    unfold splitWsAux
    have hrm : method.reverse ≠ [] := by simpa using hm
    cases hr : method.reverse with
    | nil => exact absurd hr hrm
    | cons c r => rw [← hr]; simp [hm]

theorem Pos.free {d : Dir} {points method : Str} {gap : List Str} {task : Task} {answer : Str} {H : Hints} {rest : List Str} {i : Nat}
    (h : Pos E S c0 s k (f :: fs) ((Entry.free d points method gap task answer H).lines i ++ rest))
    (hok : (Entry.free d points method gap task answer H).Ok)
    (hr : Low (i + 1) rest) (hf : f.data.kind = .AplusQuestionnaire) (hi : f.data.bodyIndent = some i) :
    Does E S c0 (parseFreetext E (i + 3) (spaces i ++ d.head).length (isBlank d.arg)) s (.neither, none)
      (k + ((Entry.free d points method gap task answer H).lines i).length)
      ((f.earn (Entry.free d points method gap task answer H).points).add [(Entry.free d points method gap task answer H).shape i] :: fs) rest := by
  obtain ⟨hd, _, harg, hnum, hpw, hmw, hg, hb, ht, hans, hh⟩ := hok
  obtain ⟨hpn, hn⟩ := number_arg hnum
  have ha : d.arg ≠ [] := by rw [harg]; simp [hpn]
  obtain ⟨hw0, hw1⟩ := splitWs_free hpn hpw hmw
  rw [← harg] at hw0 hw1
  have e : (Entry.free d points method gap task answer H).lines i ++ rest = d.lines i ++ (gap ++ (task.lines.map (indentLine (i + 3)) ++
      (task.gap ++ (indentLine (i + 3) answer :: (H.lines (i + 3) ++ rest))))) := by simp [Entry.lines, Task.source]
  rw [e] at h
  unfold parseFreetext
  refine (h.arguments hd (gap_stops hg hb) ha).bind fun s1 h1 => ?_
  refine (h1.required rfl).bind fun s2 h2 => ?_
  simp only [joinWith]
  refine (h2.required hw0).bind fun s3 h3 => ?_
  refine (h3.required hn).bind fun s3' h3' => ?_
  refine (h3'.earn _ hf hi).bind fun s4 h4 => ?_
  obtain ⟨gap', m, hb', hm, hopt⟩ := h4.options hd hg hb
  refine hopt.bind fun s5 h5 => ?_
  simp only [Dir.optionOf, hw1]
  have hkind : Kind.AplusFreeText ∈ questionKinds := by decide
  refine (h5.open (data := .AplusFreeText (i + 3) ((parseUint 32 points).getD 0) method [] (d.get (str! "class")) (d.get (str! "required"))
    (d.get (str! "key")) (d.get (str! "length")) (d.get (str! "height"))) .Body
    (by show childIsAllowed (addPoints _ f.data).kind _ = _; rw [addPoints_kind, hf]; exact (question_parts hkind).1)
    (question_parts hkind).2.1 rfl rfl).bind fun s7 h7 => ?_
  obtain ⟨l, ls, _, hl1, hl2, _, _⟩ := task_front ht (i + 3) (indentLine (i + 3) answer :: (H.lines (i + 3) ++ rest))
  have hfront : ∀ x, (task.lines.map (indentLine (i + 3)) ++ (task.gap ++ (indentLine (i + 3) answer :: (H.lines (i + 3) ++ rest)))).head? = some x →
      isBlank x = false := by
    intro x hx; rw [hl1] at hx; cases hx; exact hl2
  refine (h7.skip hb' hfront).bind fun s8 h8 => ?_
  refine (h8.assignment ht.prose (gap_stops ht.gap.1 ht.gap.2)).bind fun s9 h9 => ?_
  refine (h9.paragraph (i + 3) task.pieces (question_parts hkind).2.2.2.2).bind fun s10 h10 => ?_
  obtain ⟨c, t, hc, hwc⟩ := hans.1.cons
  have hnb : isBlank (indentLine (i + 3) answer) = false := by rw [hc]; exact indented_not_blank hwc _
  have hind : indentOf (indentLine (i + 3) answer) = i + 3 := by rw [hc]; exact indentOf_indented hwc _
  refine (h10.skip ht.gap.2 (by intro x hx; cases hx; exact hnb)).bind fun s11 h11 => ?_
  refine h11.offset.bind fun s12 h12 => ?_
  refine (h12.required h11.line).bind fun s13 h13 => ?_
  rw [if_neg (by simpa using hind)]
  have hdoc : Does E S c0 P.doc s13 s13.doc _ _ _ := ⟨s13, rfl, h13⟩
  refine hdoc.bind fun s14 h14 => ?_
  have hk : s13.doc.sharedData.kind = .AplusFreeText := by
    show s13.doc.tree.node.data.kind = _
    rw [h13.spine.data]; rfl
  rw [if_neg (by rw [hk]; simp), trim_spaces, hans.trim]
  refine (h14.mapData (g := addAnswer answer) (question_parts hkind).2.1 (question_parts hkind).2.1 rfl).bind fun s15 h15 => ?_
  refine (h15.advance 1).bind fun s16 h16 => ?_
  have := Pos.finish (type := .FreeText) h16 hh (hr.mono (by omega)) hkind
  have e2 : k + m + gap'.length + task.lines.length + task.gap.length + 1 + (H.lines (i + 3)).length =
      k + ((Entry.free d points method gap task answer H).lines i).length := by
    simp only [Entry.lines, Task.source, List.length_append, List.length_map, List.length_cons] at hm ⊢
    omega
  rw [e2] at this
  have e3 : (Frame.add { (⟨.Body, .AplusFreeText (i + 3) ((parseUint 32 points).getD 0) method [] (d.get (str! "class")) (d.get (str! "required"))
    (d.get (str! "key")) (d.get (str! "length")) (d.get (str! "height")), [], []⟩ : Frame).add [paragraphShape (i + 3) task.pieces] with
      data := addAnswer answer (.AplusFreeText (i + 3) ((parseUint 32 points).getD 0) method [] (d.get (str! "class")) (d.get (str! "required"))
    (d.get (str! "key")) (d.get (str! "length")) (d.get (str! "height"))) } [H.shape .FreeText (i + 3)]).shape =
      (Entry.free d points method gap task answer H).shape i := by
    show Frame.shape ⟨_, _, _, _⟩ = _
    refine (question_shape ?_ _ _).trans ?_
    · exact (question_parts hkind).2.1
    simp [Entry.shape, freeNode, addAnswer, Frame.add]
  rw [← e3]
  exact this

end

end Rustla
