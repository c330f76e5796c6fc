import Verif.Spec.Leaves
/-!
# Specification of directives without content

Directives that contain blocks if some are indented below them, and that may stand alone.
-/
namespace Rustla.Spec

/-- Directives that may stand without options and content: unknown ones, admonitions with a title, points of interest and figures. -/
def Box.bare : Box → Prop
  | .unknown _ | .admonition _ | .poi _ | .figure _ => True
  | _ => False

instance Box.decidableBare (X : Box) : Decidable X.bare := by cases X <;> (unfold Box.bare; infer_instance)

/-- The node of such a directive without options, for some indentation of its content. -/
def Box.bareNode (j : Nat) : Box → NodeType
  | .unknown d => .UnknownDirective d.key d.arg [] j
  | .admonition d => .Admonition j none none (.Admonition d.arg)
  | .poi d => .AplusPOI d.arg j none none none none none none none none none none none
  | .figure d => .Figure j none none none none
  | X => X.node j

/-- The node of a directive without options and content, and the blocks that are its own: the image of a figure. -/
def Box.bareShape (j : Nat) (X : Box) (ss : List Shape) : Shape := .node (X.bareNode j) (X.kids.map (.node · []) ++ ss)

end Rustla.Spec
