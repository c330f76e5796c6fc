import Verif.Model.NodeData
import Verif.Model.NodeTypes
import Verif.Model.Latex
/-! # Specification of texts without markup -/
namespace Rustla

/-- Characters that can start or take part in inline markup. -/
def markupChars : List Char := ['*', '`', '_', '[', '|', ':', '@']

/-- A text without markup characters. -/
def markupFree (s : Str) : Prop := ∀ c ∈ s, c ∉ markupChars

instance (s : Str) : Decidable (markupFree s) := inferInstanceAs (Decidable (∀ c ∈ s, c ∉ markupChars))

/-- Maximal runs of white space and of other characters. -/
def runs (s : Str) : List Str := s.splitBy fun a b => isWs a == isWs b

/-- What a run of a markup-free text becomes. -/
def runNode (r : Str) : NodeType := if r.all isWs then .WhiteSpace r else .Text (escapeText r)

/-- The text of a text or white-space node. -/
def nodeText : NodeType → Str
  | .Text t => t
  | .WhiteSpace t => t
  | _ => []

end Rustla
