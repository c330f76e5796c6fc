import Verif.Model.Writer
import Verif.Spec.Tour
import Verif.Props.MadeKinds
/-!
# C39, C40, C43, C44, C45, C48, C49: what the writer writes
-/
namespace Rustla
open Spec

/-! ## C40 -/

/-- The string for a visit of a node: the opening string when it is entered, the closing string when it is left. -/
def visitString (w : WriterEnv) : Visit → Run Str
  | .enter n => preString w n.refnames n.data
  | .leave n => postString w n.refnames n.data

/-- Write strings one after the other until one of them panics. -/
def writeAll : List (Run Str) → Written
  | [] => { chunks := [] }
  | .ok s :: rest => { chunks := s :: (writeAll rest).chunks, panic := (writeAll rest).panic }
  | .error p :: _ => { chunks := [], panic := some p }

/-- Everything that has been written. -/
def Written.text (r : Written) : Str := r.chunks.flatten

theorem andThen_assoc (a b c : Written) : (a.andThen b).andThen c = a.andThen (b.andThen c) := by
  unfold Written.andThen
  cases ha : a.panic with
  | some p => simp [ha]
  | none => cases hb : b.panic <;> simp [hb]

theorem nil_andThen (a : Written) : Written.andThen { chunks := [] } a = a := by
  cases a; simp [Written.andThen]

theorem writeAll_cons (r : Run Str) (rs : List (Run Str)) : writeAll (r :: rs) = (writeChunk r).andThen (writeAll rs) := by
  cases r <;> simp [writeAll, writeChunk, Written.andThen]

theorem writeAll_append (a b : List (Run Str)) : writeAll (a ++ b) = (writeAll a).andThen (writeAll b) := by
  induction a with
  | nil => simp [writeAll, nil_andThen]
  | cons r rs ih => rw [List.cons_append, writeAll_cons, writeAll_cons, ih, andThen_assoc]

theorem writeAll_single (r : Run Str) : writeAll [r] = writeChunk r := by
  cases r <;> rfl

mutual
theorem writeNode_tour (w : WriterEnv) : ∀ t : TreeNode, writeNode w t = writeAll ((tour t).map (visitString w))
  | .mk i r c d none => by
    simp only [writeNode, tour, List.nil_append, List.map_cons, List.map_nil, writeAll_cons, visitString]
    simp [nil_andThen, writeAll, TreeNode.refnames, TreeNode.data]
    congr 1
    cases postString w r d <;> rfl
  | .mk i r c d (some l) => by
    have := writeNodes_tours w l
    simp only [writeNode, tour, List.map_cons, List.map_nil, List.map_append, writeAll_cons, writeAll_append, visitString,
      this]
    simp only [TreeNode.refnames, TreeNode.data]
    congr 2
    cases postString w r d <;> rfl
theorem writeNodes_tours (w : WriterEnv) :
    ∀ ts : List TreeNode, writeNodes w ts = writeAll ((tours ts).map (visitString w))
  | [] => rfl
  | t :: ts => by
    rw [writeNodes, writeNode_tour w t, writeNodes_tours w ts, tours, List.map_append, writeAll_append]
end

/-- **C40.** For every document and every position of the focus: the writer walks around the document, writes the opening
string of a node when it enters it and its closing string when it leaves it, and stops at the first panic.  Hence the
output depends on the document only. -/
theorem C40_document_order (w : WriterEnv) (z : Zipper) (t : TreeNode) (h : IsDoc z t) :
    writeZipper w z = writeAll ((tour t).map (visitString w)) := by
  unfold writeZipper
  rw [h]
  exact writeNode_tour w t

/-- **C40 (position of the focus).** -/
theorem C40_focus (w : WriterEnv) (z z' : Zipper) (t : TreeNode) (h : IsDoc z t) (h' : IsDoc z' t) :
    writeZipper w z = writeZipper w z' := by
  rw [C40_document_order w z t h, C40_document_order w z' t h']

theorem writeAll_ok {rs : List (Run Str)} (h : (writeAll rs).panic = none) : rs = (writeAll rs).chunks.map .ok := by
  induction rs with
  | nil => rfl
  | cons r rs ih =>
    cases r with
    | error p => simp [writeAll] at h
    | ok s => simp only [writeAll, List.map_cons] at h ⊢; rw [← ih h]

/-- **C40 (no panic).** If the writer does not panic, then every node has been written: the chunks are, in this order, the
strings of all visits. -/
theorem C40_complete (w : WriterEnv) (z : Zipper) (t : TreeNode) (h : IsDoc z t) (hp : (writeZipper w z).panic = none) :
    (tour t).map (visitString w) = (writeZipper w z).chunks.map .ok := by
  rw [C40_document_order w z t h] at hp ⊢
  exact writeAll_ok hp

theorem writeNode_panic {w : WriterEnv} {t : TreeNode} : (writeNode w t).panic = none ↔
    ∀ n ∈ preorder t, (∃ s, preString w n.refnames n.data = .ok s) ∧ ∃ s, postString w n.refnames n.data = .ok s := by
  rw [writeNode_tour]
  have key : ∀ vs : List Visit, (writeAll (vs.map (visitString w))).panic = none ↔
      (∀ n ∈ entered vs, ∃ s, preString w n.refnames n.data = .ok s) ∧
      (∀ n ∈ departed vs, ∃ s, postString w n.refnames n.data = .ok s) := by
    intro vs
    induction vs with
    | nil => simp [writeAll, entered, departed]
    | cons v vs ih =>
      unfold entered departed at ih ⊢
      cases v with
      | enter n =>
        simp only [List.map_cons, visitString, List.filterMap_cons, List.mem_cons, forall_eq_or_imp]
        cases hs : preString w n.refnames n.data with
        | ok s => simp [writeAll, ih]
        | error p => simp [writeAll]
      | leave n =>
        simp only [List.map_cons, visitString, List.filterMap_cons, List.mem_cons, forall_eq_or_imp]
        cases hs : postString w n.refnames n.data with
        | ok s => simp [writeAll, ih]
        | error p => simp [writeAll]
  rw [key, entered_tour]
  constructor
  · rintro ⟨h1, h2⟩ n hn
    exact ⟨h1 n hn, h2 n ((departed_tour t).mem_iff.2 hn)⟩
  · intro h
    exact ⟨fun n hn => (h n hn).1, fun n hn => (h n ((departed_tour t).mem_iff.1 hn)).2⟩

/-- The opening string of every node of a written document is in the output. -/
theorem opening_written {w : WriterEnv} {t n : TreeNode} {s : Str} (hp : (writeNode w t).panic = none)
    (hn : n ∈ preorder t) (hs : preString w n.refnames n.data = .ok s) : s <:+: (writeNode w t).text := by
  have h := writeNode_tour w t
  have hc : (tour t).map (visitString w) = (writeNode w t).chunks.map .ok := by
    rw [h] at hp ⊢; exact writeAll_ok hp
  rw [← entered_tour] at hn
  unfold entered at hn
  obtain ⟨v, hv, he⟩ := List.mem_filterMap.1 hn
  cases v with
  | leave m => cases he
  | enter m =>
    simp only [Option.some.injEq] at he
    subst he
    have : Except.ok s ∈ (writeNode w t).chunks.map (Except.ok (ε := Panic)) := by
      rw [← hc]; exact List.mem_map.2 ⟨_, hv, hs⟩
    obtain ⟨s', hs', he⟩ := List.mem_map.1 this
    cases he
    obtain ⟨a, b, hab⟩ := List.append_of_mem hs'
    exact ⟨a.flatten, b.flatten, by simp [Written.text, hab]⟩

/-! ## C43 -/

/-- The LaTeX command for a section of a level: a chapter, a section, and `sub` for every further level, at most twice. -/
def levelCommand (level : Nat) : Str :=
  if level = 1 then str! "chapter" else (List.replicate (min (level - 2) 2) (str! "sub")).flatten ++ str! "section"

/-- **C43.** In the output for a document that is written without a panic there is, for every section of a level of at
least one, one anchor for each of its labels in order, immediately followed by the command for its level with its
title. -/
theorem C43_sections (w : WriterEnv) (t n : TreeNode) (hp : (writeNode w t).panic = none) (hn : n ∈ preorder t)
    (title : Str) (level : Nat) (style : SectionLineStyle) (hd : n.data = .Section title level style) (hl : 1 ≤ level) :
    (((n.refnames.getD []).map fun l => str! "\\rstlabel{" ++ l ++ str! "}\n").flatten ++
      str! "\\" ++ levelCommand level ++ str! "{" ++ title ++ str! "}\n\n") <:+: (writeNode w t).text := by
  refine opening_written hp hn ?_
  rw [hd]
  have hc : sectionCommand level = levelCommand level := by
    unfold sectionCommand levelCommand
    by_cases h1 : level = 1
    · simp [h1]
    · by_cases h2 : level = 2
      · subst h2; rfl
      · by_cases h3 : level = 3
        · subst h3; rfl
        · have : min (level - 2) 2 = 2 := by omega
          simp [h1, h2, h3, this]
  simp only [preString, anchorString, anchorKind, given, hc, Option.map_none, Option.getD_none, List.nil_append]
  congr 6

/-- The hypotheses are met by a section of the second level with two labels below a document. -/
example (w : WriterEnv) : ∃ t n title level style, (writeNode w t).panic = none ∧ n ∈ preorder t ∧
    n.data = .Section title level style ∧ n.refnames = some [str! "a", str! "b"] ∧ level = 2 := by
  let n : TreeNode := .mk 1 (some [str! "a", str! "b"]) none (.Section (str! "T") 2 (.Under '-')) (some [])
  refine ⟨.mk 0 none none .Document (some [n]), n, str! "T", 2, .Under '-', ?_, ?_, rfl, rfl, rfl⟩
  · cases w with | mk f a b c => cases f <;> rfl
  · simp [preorder, preorderList, n]

/-! ## C44 -/

/-- The opening strings do not depend on whether a full document is requested, except for the document node. -/
theorem preString_full (w : WriterEnv) (b : Bool) (labels : Option (List Str)) (data : NodeType) (h : data.kind ≠ .Document) :
    preString { w with fullDocument := b } labels data = preString w labels data := by
  cases data <;> first | rfl | (rename_i v; cases v <;> rfl) | (rename_i v _ _ _ _; cases v <;> rfl) | exact absurd rfl h

theorem postString_full (w : WriterEnv) (b : Bool) (labels : Option (List Str)) (data : NodeType) (h : data.kind ≠ .Document) :
    postString { w with fullDocument := b } labels data = postString w labels data := by
  cases data <;> first | rfl | (rename_i v; cases v <;> rfl) | (rename_i v _ _ _ _; cases v <;> rfl) | exact absurd rfl h

mutual
theorem writeNode_congr {w w' : WriterEnv} : ∀ t : TreeNode,
    (∀ n ∈ preorder t, preString w n.refnames n.data = preString w' n.refnames n.data ∧
      postString w n.refnames n.data = postString w' n.refnames n.data) → writeNode w t = writeNode w' t
  | .mk i r c d none, h => by
    obtain ⟨h1, h2⟩ := h _ (by rw [preorder]; exact List.mem_cons_self ..)
    simp only [TreeNode.refnames, TreeNode.data] at h1 h2
    simp only [writeNode, h1, h2]
  | .mk i r c d (some l), h => by
    obtain ⟨h1, h2⟩ := h _ (by rw [preorder]; exact List.mem_cons_self ..)
    simp only [TreeNode.refnames, TreeNode.data] at h1 h2
    simp only [writeNode, h1, h2]
    rw [writeNodes_congr l fun n hn => h n (by rw [preorder]; exact List.mem_cons_of_mem _ hn)]
theorem writeNodes_congr {w w' : WriterEnv} : ∀ ts : List TreeNode,
    (∀ n ∈ preorderList ts, preString w n.refnames n.data = preString w' n.refnames n.data ∧
      postString w n.refnames n.data = postString w' n.refnames n.data) → writeNodes w ts = writeNodes w' ts
  | [], _ => rfl
  | t :: ts, h => by
    rw [writeNodes, writeNodes, writeNode_congr t fun n hn => h n (by simp [preorderList, hn]),
      writeNodes_congr ts fun n hn => h n (by simp [preorderList, hn])]
end

/-- **C44.** For every document (root node of the kind document and no other nodes of this kind): the output with the
option for a full document is the output without it between the beginning and the end of a LaTeX document; without the
option the document node itself contributes nothing. -/
theorem C44_wrapper (w : WriterEnv) (t : TreeNode) (hr : t.kind = .Document)
    (hno : ∀ n ∈ preorderList (t.children.getD []), n.kind ≠ .Document)
    (hp : (writeNode { w with fullDocument := false } t).panic = none) :
    (writeNode { w with fullDocument := true } t).panic = none ∧
    (writeNode { w with fullDocument := true } t).text =
      str! "\\documentclass{aplus}\n\\begin{document}\n\n" ++ (writeNode { w with fullDocument := false } t).text ++
      str! "\\end{document}\n" ∧
    (writeNode { w with fullDocument := false } t).text = (writeNodes w (t.children.getD [])).text := by
  cases t with
  | mk i r c d cs =>
    have hd : d = .Document := by
      cases d <;> first | rfl | (simp only [TreeNode.kind, TreeNode.data, NodeType.kind, reduceCtorEq] at hr)
    subst hd
    cases cs with
    | none =>
      refine ⟨rfl, ?_, rfl⟩
      simp [writeNode, preString, postString, writeChunk, Written.andThen, Written.text, flag]
    | some l =>
      have h1 : ∀ b, writeNodes { w with fullDocument := b } l = writeNodes w l := fun b =>
        writeNodes_congr l fun n hn =>
          ⟨preString_full w b _ _ (hno n hn), postString_full w b _ _ (hno n hn)⟩
      simp only [writeNode, preString, postString, writeChunk, Written.andThen, h1, flag] at hp ⊢
      cases hq : (writeNodes w l).panic with
      | some p => rw [hq] at hp; simp [hq] at hp
      | none => simp [Written.text, TreeNode.children]

/-- **C44 for parsed documents.** The hypotheses of `C44_wrapper` hold for every document that the parser returns. -/
theorem C44_parsed (fuel : Nat) (stem folder : Str) (lines : List Str) (r : ParsingResult)
    (h : parseDocument fuel stem folder lines = .ok r) :
    ∃ t, IsDoc r.doc.tree t ∧ t.kind = .Document ∧ ∀ n ∈ preorderList (t.children.getD []), n.kind ≠ .Document := by
  obtain ⟨t, h1, h2, h3⟩ := C42_made_kinds fuel stem folder lines r h
  exact ⟨t, h1, h2, fun n hn e => by have := h3 n hn; rw [e] at this; cases this⟩

end Rustla
