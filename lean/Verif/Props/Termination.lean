import Verif.Lemmas.SafeLoop
import Verif.Lemmas.Refines
import Verif.Props.Writable
import Verif.Lemmas.TransformErrors
/-!
# The parser ends on every document, and the ways in which it crashes (C54, C55)

The model of the parser takes a bound on the number of rounds (and on the depth of nested parsers) and reports
`outOfFuel` when the bound is too small.  The results of this file show that there is a bound, computed from the size of
the text alone, at and beyond which the bound never shows.
-/
namespace Rustla
open Spec

theorem bound_enough {n : Nat} {stem folder : Str} {lines : List Str} (hn : roundsBound (textSize lines) ≤ n) :
    parseDocument n stem folder lines ≠ .error .outOfFuel := by
  intro he
  have := parser_safe (textSize lines) n hn lines (DocTree.new stem folder) 0 0 .Body 0 (Nat.le_refl _) rfl (full_new ..)
  unfold parseDocument at he
  rw [he] at this
  have : Panic.outOfFuel ∈ crashReasons := this
  revert this
  decide

/-- A result found with any bound is the result with the bound computed from the size of the text. -/
theorem C54_any_bound (fuel : Nat) (stem folder : Str) (lines : List Str) :
    parseDocument fuel stem folder lines = .error .outOfFuel ∨
    parseDocument fuel stem folder lines = parseDocument (roundsBound (textSize lines)) stem folder lines := by
  rcases Nat.le_total fuel (roundsBound (textSize lines)) with h | h
  · exact parserOf_mono h lines (DocTree.new stem folder) 0 0 .Body 0
  · rcases parserOf_mono h lines (DocTree.new stem folder) 0 0 .Body 0 with h | h
    · exact absurd h (bound_enough (Nat.le_refl _))
    · exact .inr h.symm

/-- **C54.** The parser ends on every document: for every text there is a bound, computed from the number of its
characters and lines, such that with every larger number of rounds the parser returns the same result (a document, a
failure, or a panic of the program). -/
theorem C54_terminates (stem folder : Str) (lines : List Str) : ∃ r : Run ParsingResult, r ≠ .error .outOfFuel ∧
    ∀ fuel, roundsBound (textSize lines) ≤ fuel → parseDocument fuel stem folder lines = r := by
  refine ⟨parseDocument (roundsBound (textSize lines)) stem folder lines, bound_enough (Nat.le_refl _), fun fuel h => ?_⟩
  rcases C54_any_bound fuel stem folder lines with he | he
  · exact absurd he (bound_enough h)
  · exact he

/-- The bound of a text of one empty line. -/
example : textSize [[]] = 1 ∧ roundsBound 1 = 487 := by decide

/-- **C55.** For every text: if the parser crashes, then for one of the eight known reasons. -/
theorem C55_only_known_crashes (fuel : Nat) (stem folder : Str) (lines : List Str)
    (hf : roundsBound (textSize lines) ≤ fuel) (p : Panic) (h : parseDocument fuel stem folder lines = .error p) :
    p ∈ crashReasons := by
  have := parser_safe (textSize lines) fuel hf lines (DocTree.new stem folder) 0 0 .Body 0 (Nat.le_refl _) rfl (full_new ..)
  unfold parseDocument at h
  rw [h] at this
  exact this

/-- A crash found with any bound is a crash of the program. -/
theorem crash_found {fuel : Nat} {stem folder : Str} {lines : List Str} {p : Panic}
    (h : parseDocument fuel stem folder lines = .error p) (hp : p ≠ .outOfFuel) :
    parseDocument (roundsBound (textSize lines)) stem folder lines = .error p := by
  rcases C54_any_bound fuel stem folder lines with he | he
  · rw [he] at h; cases h; exact absurd rfl hp
  · rw [← he]; exact h

/-- One document per reason. -/
def crashingDocuments : List (List Str) :=
  [[str! ":PEP:`12345`"],
   [str! ".. math::"],
   [str! ".. note:: para::", [], str! "   text", [], str! "   ::", [], str! "   x"],
   [str! "* - a", str! "      b", str! "   - b"],
   [str! ".. footnotes::"],
   [str! ".. list-table:: T", str! "   :widths: x"],
   [str! ".. _foo: _`bar`"],
   [str! ".. questionnaire:: 1", str! "   :a: b", [], str! "   _`bar`", []]]

/-- The panic that ends a parse, if any. -/
def panicOf : Run ParsingResult → Option Panic
  | .error p => some p
  | .ok _ => none

theorem crashes_found : crashingDocuments.map (fun ls => panicOf (parseDocument 12 (str! "f") (str! "d") ls)) =
    crashReasons.map some := by
  decide +kernel

/-- **C55.** Each of the eight reasons is the end of some document: the list has no superfluous entry. -/
theorem C55_each_happens (p : Panic) (hp : p ∈ crashReasons) : ∃ lines : List Str,
    ∀ fuel, roundsBound (textSize lines) ≤ fuel → parseDocument fuel (str! "f") (str! "d") lines = .error p := by
  have h : some p ∈ crashReasons.map some := List.mem_map.2 ⟨p, hp, rfl⟩
  rw [← crashes_found] at h
  obtain ⟨ls, _, hl⟩ := List.mem_map.1 h
  have he : parseDocument 12 (str! "f") (str! "d") ls = .error p := by
    unfold panicOf at hl
    split at hl
    · rename_i heq; cases hl; exact heq
    · cases hl
  have hne : p ≠ .outOfFuel := by rintro rfl; exact absurd hp (by decide)
  refine ⟨ls, fun fuel hf => ?_⟩
  obtain ⟨r, _, hr⟩ := C54_terminates (str! "f") (str! "d") ls
  rw [hr fuel hf, ← hr _ (Nat.le_refl _)]
  exact crash_found he hne

/-! ## The whole program -/

theorem preString_error {w : WriterEnv} {labels : Option (List Str)} {data : NodeType} {p : Panic}
    (h : preString w labels data = .error p) : p ∈ laterCrashReasons := by
  cases data <;> first
    | (cases h <;> decide)
    | (rename_i v; cases v <;> cases h <;> decide)
    | (rename_i v _ _ _ _; cases v <;> cases h <;> decide)

theorem postString_error {w : WriterEnv} {labels : Option (List Str)} {data : NodeType} {p : Panic}
    (h : postString w labels data = .error p) : ∃ q, preString w labels data = .error q := by
  cases data <;> first
    | (cases h <;> exact ⟨_, rfl⟩)
    | (rename_i v; cases v <;> cases h <;> exact ⟨_, rfl⟩)

theorem andThen_panic {a b : Written} {p : Panic} (h : (a.andThen b).panic = some p) :
    a.panic = some p ∨ a.panic = none ∧ b.panic = some p := by
  unfold Written.andThen at h
  split at h
  · exact .inl h
  · rename_i hn; exact .inr ⟨hn, h⟩

mutual
theorem writeNode_reason {w : WriterEnv} {p : Panic} : ∀ t : TreeNode, (writeNode w t).panic = some p →
    p ∈ laterCrashReasons
  | .mk i labels c data children, h => by
    unfold writeNode at h
    rcases andThen_panic h with h | ⟨h0, h⟩
    · cases hp : preString w labels data with
      | ok s => rw [hp] at h; cases h
      | error q => rw [hp] at h; cases h; exact preString_error hp
    · rcases andThen_panic h with h | ⟨_, h⟩
      · cases children with
        | none => cases h
        | some cs => exact writeNodes_reason cs h
      · cases hp : postString w labels data with
        | ok s => rw [hp] at h; cases h
        | error q =>
          obtain ⟨q', hq⟩ := postString_error hp
          rw [hq] at h0; cases h0
theorem writeNodes_reason {w : WriterEnv} {p : Panic} : ∀ ts : List TreeNode, (writeNodes w ts).panic = some p →
    p ∈ laterCrashReasons
  | [], h => by cases h
  | t :: ts, h => by
    unfold writeNodes at h
    rcases andThen_panic h with h | ⟨_, h⟩
    · exact writeNode_reason t h
    · exact writeNodes_reason ts h
end

/-- **C55, the whole program.** For every text: if the program crashes while it parses, transforms or writes the text,
then for one of the eight reasons of the parser or one of the three reasons behind it.  In particular no other
`unwrap`, index, subtraction or `unreachable!` of the modelled code is ever the end of a run. -/
theorem C55_program (fuel : Nat) (w : WriterEnv) (stem folder : Str) (lines : List Str)
    (hf : roundsBound (textSize lines) ≤ fuel) (p : Panic) (h : (transpile fuel w stem folder lines).panic = some p) :
    p ∈ crashReasons ∨ p ∈ laterCrashReasons := by
  unfold transpile at h
  cases hr : parseDocument fuel stem folder lines with
  | error q => rw [hr] at h; cases h; exact .inl (C55_only_known_crashes fuel stem folder lines hf _ hr)
  | ok r =>
    rw [hr] at h
    simp only at h
    right
    obtain ⟨t, ht, hl⟩ := C16_leaves r.doc (parsed_reachable hr)
    have hz : r.doc.tree.walkToRoot = .ok ⟨t, []⟩ := ht
    cases hd : r.doc.transform with
    | error q =>
      rw [hd] at h; cases h
      unfold DocTree.transform at hd
      rw [hz] at hd
      simp only [bind, Except.bind] at hd
      cases hn : transformTree t with
      | ok t' => rw [hn] at hd; cases hd
      | error q' =>
        rw [hn] at hd; cases hd
        have := transformUpTo_error (Nat.le_succ _) (fun n hn hk => ?_) hn
        · rw [this]; decide
        · have := (hl n hn).1
          rw [hk] at this
          intro e; rw [e] at this; cases this
    | ok d =>
      rw [hd] at h
      simp only at h
      have hd' := hd
      unfold DocTree.transform at hd'
      rw [hz] at hd'
      simp only [bind, Except.bind] at hd'
      cases hn : transformTree t with
      | error q' => rw [hn] at hd'; cases hd'
      | ok t' =>
        rw [hn] at hd'; cases hd'
        exact writeNode_reason t' h

/-- One document per reason behind the parser. -/
def laterCrashingDocuments : List (List Str) :=
  [[str! ".. list-table:: T", [], str! "   * • a"],
   [str! ".. list-table:: T", [], str! "   text"],
   [str! ".. _home: https://www.tuni.fi/", [], []]]

theorem later_found : laterCrashingDocuments.map (fun ls => (transpile 30 (sampleEnv true) (str! "f") (str! "d") ls).panic) =
    laterCrashReasons.map some := by
  decide +kernel

/-- **C55, the whole program.** Each of the three reasons behind the parser is the end of some document. -/
theorem C55_program_each (p : Panic) (hp : p ∈ laterCrashReasons) : ∃ lines : List Str,
    ∀ fuel, roundsBound (textSize lines) ≤ fuel →
      (transpile fuel (sampleEnv true) (str! "f") (str! "d") lines).panic = some p := by
  have h : some p ∈ laterCrashReasons.map some := List.mem_map.2 ⟨p, hp, rfl⟩
  rw [← later_found] at h
  obtain ⟨ls, _, hl⟩ := List.mem_map.1 h
  refine ⟨ls, fun fuel hf => ?_⟩
  obtain ⟨r, _, hr⟩ := C54_terminates (str! "f") (str! "d") ls
  have h1 : parseDocument 30 (str! "f") (str! "d") ls = r := by
    rcases C54_any_bound 30 (str! "f") (str! "d") ls with he | he
    · unfold transpile at hl
      rw [he] at hl
      cases hl
      exact absurd hp (by decide)
    · rw [he, hr _ (Nat.le_refl _)]
  unfold transpile at hl ⊢
  rw [hr fuel hf, ← h1]
  exact hl

end Rustla
