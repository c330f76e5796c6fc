import Verif.Props.WriterText
/-!
# C42: documents that can be written
-/
namespace Rustla
open Spec

/-- Nodes for which the writer has no string: hyperlink targets (they are moved out of the document only as far as labels
are concerned), references to substitutions, and list tables whose columns have no widths. -/
def cannotBeWritten : NodeType → Bool
  | .ExternalHyperlinkTarget .. | .IndirectHyperlinkTarget .. | .SubstitutionReference .. => true
  | .ListTable _ _ none .. => true
  | _ => false

/-- The kinds of nodes of a document to be written. -/
def writtenKind (k : Kind) : Bool := madeKind k || transformedKind k || (match k with | .Document => true | _ => false)

theorem preString_ok (w : WriterEnv) (labels : Option (List Str)) (data : NodeType) (hk : writtenKind data.kind = true)
    (hc : cannotBeWritten data = false) : ∃ s, preString w labels data = .ok s := by
  cases data <;> first
    | exact ⟨_, rfl⟩
    | exact absurd hk Bool.false_ne_true
    | exact absurd hc.symm Bool.false_ne_true
    | (rename_i v; cases v <;> exact ⟨_, rfl⟩)
    | (rename_i v _ _ _ _; cases v <;> first | exact ⟨_, rfl⟩ | exact absurd hc.symm Bool.false_ne_true)

theorem postString_ok (w : WriterEnv) (labels : Option (List Str)) (data : NodeType) (hk : writtenKind data.kind = true)
    (hc : cannotBeWritten data = false) : ∃ s, postString w labels data = .ok s := by
  cases data <;> first
    | exact ⟨_, rfl⟩
    | exact absurd hk Bool.false_ne_true
    | exact absurd hc.symm Bool.false_ne_true
    | (rename_i v; cases v <;> exact ⟨_, rfl⟩)
    | (rename_i v _ _ _ _; cases v <;> first | exact ⟨_, rfl⟩ | exact absurd hc.symm Bool.false_ne_true)

/-- **C42 (partial).** For every input: if the document of the parse has no hyperlink targets, no references to
substitutions and no list tables without widths, and the transforms succeed, then it is written completely, without a
panic. -/
theorem C42_written_partial (fuel : Nat) (w : WriterEnv) (stem folder : Str) (lines : List Str) (r : ParsingResult)
    (d : DocTree) (h : parseDocument fuel stem folder lines = .ok r)
    (hc : ∀ t, IsDoc r.doc.tree t → ∀ n ∈ preorder t, cannotBeWritten n.data = false)
    (ht : r.doc.transform = .ok d) : (transpile fuel w stem folder lines).panic = none := by
  obtain ⟨t, t', k1, k2, k3, k4⟩ := transpile_written (w := w) h ht
  obtain ⟨t0, h1, h2, h3⟩ := C42_made_kinds fuel stem folder lines r h
  cases Zipper.isDoc_unique h1 k1
  have hall : AllNodes (LocalOk (fun d : NodeType => d) fun d _ => writtenKind d.kind = true ∧ cannotBeWritten d = false)
      t := by
    intro n hn
    refine ⟨?_, hc t k1 n hn⟩
    cases hct : t.children with
    | none =>
      rw [preorder_leaf _ hct] at hn
      simp only [List.mem_singleton] at hn
      subst hn
      show writtenKind n.kind = true
      rw [h2]; rfl
    | some cs =>
      rw [preorder_node _ _ hct] at hn
      rcases List.mem_cons.1 hn with rfl | hn
      · show writtenKind n.kind = true
        rw [h2]; rfl
      · have := h3 n (by rw [hct]; exact hn)
        show writtenKind n.kind = true
        unfold writtenKind; rw [this]; rfl
  have hall' := transform_local' (fun d vs hd => ?_) (fun d vs vs' _ hd => hd) k2 hall
  · rw [k4, writeNode_panic]
    intro n hn
    obtain ⟨a, b⟩ := hall' n hn
    exact ⟨preString_ok w _ _ a b, postString_ok w _ _ a b⟩
  · refine ⟨by unfold writtenKind; rw [hd]; simp, ?_⟩
    cases d <;> first | rfl | (simp [NodeType.kind, transformedKind] at hd)

/-- **C42 is violated.** A document with a hyperlink target parses, but is not written. -/
theorem C42_violated_target : (parsedValues (fun d => some d.kind) (parseDocument 40 (str! "f") (str! "d")
      [str! ".. _home: https://www.tuni.fi/", [], []])).map (·.1) = some true ∧
    (transpile 40 (sampleEnv false) (str! "f") (str! "d") [str! ".. _home: https://www.tuni.fi/", [], []]).panic =
      some (.todo "larst_writer.rs larst_pre_order_string") := by
  decide +kernel

/-- **C42 is violated.** A document with a substitution reference parses, but is not written. -/
theorem C42_violated_substitution : (parsedValues (fun d => some d.kind) (parseDocument 40 (str! "f") (str! "d")
      [str! "a |b| c", [], []])).map (·.1) = some true ∧
    (transpile 40 (sampleEnv false) (str! "f") (str! "d") [str! "a |b| c", [], []]).panic =
      some (.todo "larst_writer.rs larst_pre_order_string") := by
  decide +kernel

/-- The hypotheses of `C42_written_partial` are met by a document with a section, a table and a figure. -/
example : (transpile 60 (sampleEnv false) (str! "f") (str! "d")
    ([str! "Title", str! "=====", []] ++ sampleTable ++ sampleFigure)).panic = none ∧
    (parsedValues (fun d => some (cannotBeWritten d)) (parseDocument 60 (str! "f") (str! "d")
      ([str! "Title", str! "=====", []] ++ sampleTable ++ sampleFigure))).map (fun p => (p.1, p.2.any (· == true), p.2.length))
      = some (true, false, 26) := by
  decide +kernel

end Rustla
