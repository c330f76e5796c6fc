import Verif.Model.Basic
/-!
# Specification of paragraphs: groups of lines separated by blank lines
-/
namespace Rustla.Spec

/-- The groups of non-blank lines of a text, in order: before, between and behind the groups there are only blank lines,
and a group ends at a blank line or at the end of the text. -/
inductive Groups : List Str → List (List Str) → Prop
  | blank (bs : List Str) : (∀ l ∈ bs, isBlank l = true) → Groups bs []
  | group (bs g rest : List Str) (gs : List (List Str)) : (∀ l ∈ bs, isBlank l = true) → g ≠ [] →
      (∀ l ∈ g, isBlank l = false) → (∀ l, rest.head? = some l → isBlank l = true) → Groups rest gs →
      Groups (bs ++ g ++ rest) (g :: gs)

end Rustla.Spec
