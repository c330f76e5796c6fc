import Verif.Props.Parsed
/-!
# C39, C52: counters that the parser keeps in nodes
-/
namespace Rustla
open Spec Relation

/-- The points that a questionnaire has added up. -/
def recordedPoints : NodeType → Option Nat
  | .AplusQuestionnaire (points_from_children := n) .. => some n
  | _ => none

/-- The points of the questions among the children of a node. -/
def childPoints (n : TreeNode) : Nat := ((n.children.getD []).map fun c => (questionPoints c.data).getD 0).sum

/-- The number of items that an enumerated list has recorded. -/
def recordedItems : NodeType → Option Nat
  | .EnumeratedList (n_of_items := n) .. => some n
  | _ => none

theorem recordedPoints_kind {d : NodeType} {n : Nat} (h : recordedPoints d = some n) : d.kind = .AplusQuestionnaire := by
  unfold recordedPoints at h; split at h
  · rfl
  · cases h

theorem recordedItems_kind {d : NodeType} {n : Nat} (h : recordedItems d = some n) : d.kind = .EnumeratedList := by
  unfold recordedItems at h; split at h
  · rfl
  · cases h

theorem questionPoints_kind {d : NodeType} {n : Nat} (h : questionPoints d = some n) :
    d.kind = .AplusPickOne ∨ d.kind = .AplusPickAny ∨ d.kind = .AplusFreeText := by
  unfold questionPoints at h; split at h
  · exact .inl rfl
  · exact .inr (.inl rfl)
  · exact .inr (.inr rfl)
  · cases h

theorem questionPoints_none {d : NodeType} (h1 : d.kind ≠ .AplusPickOne) (h2 : d.kind ≠ .AplusPickAny)
    (h3 : d.kind ≠ .AplusFreeText) : questionPoints d = none := by
  cases e : questionPoints d with
  | none => rfl
  | some n => rcases questionPoints_kind e with h | h | h <;> contradiction

/-- Kinds of nodes added without any counting. -/
theorem plain_kinds {b : NodeType}
    (h : plainData b = true ∨ b.kind = .ExternalHyperlinkTarget ∨ b.kind = .IndirectHyperlinkTarget) :
    b.kind ≠ .AplusPickOne ∧ b.kind ≠ .AplusPickAny ∧ b.kind ≠ .AplusFreeText ∧ b.kind ≠ .EnumeratedListItem := by
  rcases h with h | h | h
  · have := plainData_kind h
    refine ⟨?_, ?_, ?_, ?_⟩ <;> intro e <;> rw [e] at this <;> cases this
  · rw [h]; simp
  · rw [h]; simp

theorem addItem_points (a : NodeType) : recordedPoints (addItem a) = recordedPoints a := by
  unfold addItem; split <;> rfl

theorem addPoints_points (p : Nat) (a : NodeType) : recordedPoints (addPoints p a) = (recordedPoints a).map (· + p) := by
  unfold addPoints; split
  · rfl
  · rename_i x h
    unfold recordedPoints; split
    · exact absurd rfl (h _ _ _ _ _ _ _ _ _ _ _ _ _ _ _ _ _ _)
    · rfl

theorem addPoints_items (p : Nat) (a : NodeType) : recordedItems (addPoints p a) = recordedItems a := by
  unfold addPoints; split <;> rfl

theorem addItem_items (a : NodeType) : recordedItems (addItem a) = (recordedItems a).map (· + 1) := by
  unfold addItem; split
  · rfl
  · rename_i x h
    unfold recordedItems; split
    · exact absurd rfl (h _ _ _ _ _)
    · rfl

/-- The points add up. -/
def PointsLocal (d : NodeType) (vs : List (Option Nat)) : Prop :=
  ∀ n, recordedPoints d = some n → n = (vs.map (·.getD 0)).sum

theorem points_stable : Stable questionPoints PointsLocal where
  fresh := by
    intro a a' b hw n hn
    have hk := recordedPoints_kind hn
    cases hw
    case plain h =>
      rcases h with h | h | h
      · unfold plainData at h
        rw [Bool.and_eq_true] at h
        have h2 := h.2
        unfold newData at h2
        unfold recordedPoints at hn
        split at hn
        · cases hn; simpa using h2
        · cases hn
      · rw [hk] at h; cases h
      · rw [hk] at h; cases h
    case «section» => cases hn
    case question p hq => rcases questionPoints_kind hq with h | h | h <;> rw [h] at hk <;> cases hk
    case enumItem h => rw [h] at hk; cases hk
  add := by
    intro a a' b vs hw h n hn
    cases hw
    case plain hp =>
      obtain ⟨h1, h2, h3, _⟩ := plain_kinds hp
      rw [questionPoints_none h1 h2 h3]
      simpa using h n hn
    case «section» title level style hs => simpa [questionPoints] using h n hn
    case question p hq =>
      rw [addPoints_points] at hn
      cases hr : recordedPoints a with
      | none => rw [hr] at hn; cases hn
      | some k =>
        rw [hr] at hn
        simp only [Option.map_some, Option.some.injEq] at hn
        have := h k hr
        simp [hq]
        omega
    case enumItem hk =>
      rw [addItem_points] at hn
      rw [questionPoints_none (by rw [hk]; simp) (by rw [hk]; simp) (by rw [hk]; simp)]
      simpa using h n hn
  viewAdd := by
    intro a a' b hw
    cases hw
    case plain => rfl
    case «section» => rfl
    case question p hq => unfold addPoints; split <;> rfl
    case enumItem => unfold addItem; split <;> rfl
  change := by
    intro a a' vs hw h n hn
    cases hw with
    | answer s => refine h n ?_; rw [← hn]; unfold addAnswer; split <;> rfl
    | widths k => refine h n ?_; rw [← hn]; unfold setWidths; split <;> rfl
  viewChange := by
    intro a a' hw
    cases hw with
    | answer s => unfold addAnswer; split <;> rfl
    | widths n => unfold setWidths; split <;> rfl

/-- The items are counted. -/
def ItemsLocal (d : NodeType) (vs : List Kind) : Prop :=
  ∀ n, recordedItems d = some n → n = vs.count .EnumeratedListItem

theorem items_stable : Stable NodeType.kind ItemsLocal where
  fresh := by
    intro a a' b hw n hn
    have hk := recordedItems_kind hn
    cases hw
    case plain h =>
      rcases h with h | h | h
      · unfold plainData at h
        rw [Bool.and_eq_true] at h
        have h2 := h.2
        unfold newData at h2
        unfold recordedItems at hn
        split at hn
        · cases hn; simpa using h2
        · cases hn
      · rw [hk] at h; cases h
      · rw [hk] at h; cases h
    case «section» => cases hn
    case question p hq => rcases questionPoints_kind hq with h | h | h <;> rw [h] at hk <;> cases hk
    case enumItem h => rw [h] at hk; cases hk
  add := by
    intro a a' b vs hw h n hn
    cases hw
    case plain hp =>
      obtain ⟨_, _, _, h4⟩ := plain_kinds hp
      have := h n hn
      simpa [List.count_append, List.count_cons, h4] using this
    case «section» title level style hs => simpa [List.count_append, NodeType.kind] using h n hn
    case question p hq =>
      rw [addPoints_items] at hn
      have h4 : b.kind ≠ .EnumeratedListItem := by
        intro e
        rcases questionPoints_kind hq with h | h | h <;> rw [h] at e <;> cases e
      simpa [List.count_append, List.count_cons, h4] using h n hn
    case enumItem hk =>
      rw [addItem_items] at hn
      cases hr : recordedItems a with
      | none => rw [hr] at hn; cases hn
      | some k =>
        rw [hr] at hn
        simp only [Option.map_some, Option.some.injEq] at hn
        have := h k hr
        simp [hk, List.count_append]
        omega
  viewAdd := by
    intro a a' b hw
    obtain ⟨f, hf, he⟩ := adds_tame hw
    rw [he]; exact (hf a).1
  change := by
    intro a a' vs hw h n hn
    cases hw with
    | answer s => refine h n ?_; rw [← hn]; unfold addAnswer; split <;> rfl
    | widths k => refine h n ?_; rw [← hn]; unfold setWidths; split <;> rfl
  viewChange := by
    intro a a' hw
    obtain ⟨f, hf, he⟩ := changes_tame hw
    rw [he]; exact (hf a).1

theorem parsed_steps {fuel : Nat} {stem folder : Str} {lines : List Str} {r : ParsingResult}
    (h : parseDocument fuel stem folder lines = .ok r) (hs : r.succeeded = true) :
    Steps (DocTree.new stem folder) r.doc := by
  have := parseDocument_steps h
  cases r with
  | eof d stack => exact this
  | emptyStateStack d stack => exact this
  | failure d => cases hs

/-- **C39 (bookkeeping).** For every input that parses: the points recorded in a questionnaire are the sum of the points
of the questions that it contains. -/
theorem C39_recorded_points (fuel : Nat) (stem folder : Str) (lines : List Str) (r : ParsingResult)
    (h : parseDocument fuel stem folder lines = .ok r) (hs : r.succeeded = true) :
    ∃ t, IsDoc r.doc.tree t ∧ ∀ n ∈ preorder t, ∀ pts, recordedPoints n.data = some pts → pts = childPoints n := by
  obtain ⟨t, h1, h2⟩ := local_steps points_stable (fun n hn => by cases hn) (parsed_steps h hs)
  refine ⟨t, h1, fun n hn pts hp => ?_⟩
  have := h2 n hn pts hp
  simpa [childPoints, List.map_map, Function.comp_def] using this

/-- **C52.** For every input that parses: the number of items recorded in an enumerated list is the number of its
items. -/
theorem C52_recorded_items (fuel : Nat) (stem folder : Str) (lines : List Str) (r : ParsingResult)
    (h : parseDocument fuel stem folder lines = .ok r) (hs : r.succeeded = true) :
    ∃ t, IsDoc r.doc.tree t ∧ ∀ n ∈ preorder t, ∀ k, recordedItems n.data = some k →
      k = ((n.children.getD []).map TreeNode.kind).count .EnumeratedListItem := by
  obtain ⟨t, h1, h2⟩ := local_steps items_stable (fun n hn => by cases hn) (parsed_steps h hs)
  exact ⟨t, h1, fun n hn k hk => h2 n hn k hk⟩

/-- The lines of a questionnaire with a question for ten and one for five points. -/
def sampleQuestionnaire : List Str :=
  [str! ".. questionnaire:: k A30", [], str! "  .. pick-one:: 10", [], str! "    What?", [], str! "    a. one",
   str! "    *b. two", [], str! "  .. freetext:: 5 string", [], str! "    Say it", [], str! "    no", [], []]

/-- The values of `f` for the nodes of a parsed document, and whether the parse succeeded. -/
def parsedValues {α : Type} (f : NodeType → Option α) (r : Run ParsingResult) : Option (Bool × List α) :=
  match r with
  | .ok r => r.root.map fun t => (r.succeeded, (preorder t).filterMap fun n => f n.data)
  | .error _ => none

/-- The hypotheses of `C39_recorded_points` are met by a questionnaire with two questions. -/
example : parsedValues recordedPoints (parseDocument 40 (str! "f") (str! "d") sampleQuestionnaire) = some (true, [15]) ∧
    parsedValues questionPoints (parseDocument 40 (str! "f") (str! "d") sampleQuestionnaire) = some (true, [10, 5]) := by
  decide +kernel

/-- The hypotheses of `C52_recorded_items` are met by a list of two items. -/
example : parsedValues recordedItems
    (parseDocument 40 (str! "f") (str! "d") [str! "1. a", [], str! "2. c", [], []]) = some (true, [2]) := by
  decide +kernel

end Rustla
