import Verif.Spec.Marks
import Verif.Spec.Plain

/-!
# Numbered lines that are not items

A line that starts with a numeral such as `2.`, `b)` or `(iv)` is the first line of an item of an enumerated list only if what follows allows for
it.  This module lists what may stand on the next line, at the same indentation, so that the two lines are running text.
-/

namespace Rustla.Spec

open Rustla

/-- A line that starts with a numeral, and a line right below it that is not taken for the next item. -/
inductive Unlisted : Str → Str → Prop where
  /-- Ordinary text. -/
  | prose {d : EnumDelims} {c : Counter} {l x : Str} : c.Ok → TextLine l → TextLine x → ¬ Enumerated x → Unlisted (numeral d c ++ ' ' :: l) x
  /-- Another numeral, with other delimiters, of another kind, or with another number. -/
  | other {d d' : EnumDelims} {c c' : Counter} {l x : Str} : c.Ok → c'.Ok → c.auto = false → c'.auto = false → c'.value ≠ 1 →
      ¬ (d' = d ∧ c'.kind = c.kind ∧ c'.value = c.value) → TextLine l → TextLine x → Unlisted (numeral d c ++ ' ' :: l) (numeral d' c' ++ ' ' :: x)

/-- A paragraph without inline markup whose first two lines are such. -/
def Crowded (g : List Str) : Prop :=
  (∃ a b t, g = a :: b :: t ∧ Unlisted a b) ∧ ∀ l ∈ g, TextLine l ∧ markupFree l

/-- The items of an enumerated list with one line each: `n. a`, `n + 1. b` and so on. -/
def tightList (d : EnumDelims) (k : EnumKind) : Nat → List Str → List Str
  | _, [] => []
  | n, l :: ls => (numeral d ⟨k, n, false⟩ ++ ' ' :: l) :: tightList d k (n + 1) ls

end Rustla.Spec
