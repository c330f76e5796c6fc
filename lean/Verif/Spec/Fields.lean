import Verif.Model.Basic
/-!
# Specification of directive arguments and options

What a directive looks like in reStructuredText: the marker line, argument lines, option lines (`:name: value`), a blank
line and the content.
-/
namespace Rustla.Spec

/-- The name of an option: it starts and ends with characters that are not white space, the last one is not a backslash,
and it has no line break. -/
def FieldName (s : Str) : Prop :=
  (∃ a, s.head? = some a ∧ isWs a = false) ∧ (∃ z, s.getLast? = some z ∧ isWs z = false ∧ z ≠ '\\') ∧ '\n' ∉ s

instance (s : Str) : Decidable (FieldName s) := by
  unfold FieldName
  have h1 : Decidable (∃ a, s.head? = some a ∧ isWs a = false) := by
    cases h : s.head? with
    | none => exact isFalse (by simp)
    | some a => exact decidable_of_iff (isWs a = false) (by simp)
  have h2 : Decidable (∃ z, s.getLast? = some z ∧ isWs z = false ∧ z ≠ '\\') := by
    cases h : s.getLast? with
    | none => exact isFalse (by simp)
    | some a => exact decidable_of_iff (isWs a = false ∧ a ≠ '\\') (by simp)
  infer_instance

/-- The line is white space, `:`, a name, `:` and the rest, which is empty or starts with a space. -/
def FieldSplit (line indent name after : Str) : Prop :=
  line = indent ++ ':' :: name ++ ':' :: after ∧ (∀ c ∈ indent, isWs c = true) ∧ FieldName name ∧
    (after = [] ∨ after.head? = some ' ')

/-- The parts of an option line: of the possible names the shortest one is meant. -/
def FieldLine (line indent name after : Str) : Prop :=
  FieldSplit line indent name after ∧
    ∀ indent' name' after', FieldSplit line indent' name' after' → name.length ≤ name'.length

/-- Is the line an option line? -/
def IsField (line : Str) : Prop := ∃ indent name after, FieldSplit line indent name after

/-- An option with the given name and value, on a line with the given indentation. -/
def OptionLine (indent : Nat) (line name value : Str) : Prop :=
  ∃ ws after, FieldLine line ws name after ∧ ws.length = indent ∧ value = trim after

/-- A line after the marker line that belongs to the arguments of a directive: it has the indentation of the directive, is
not blank, and without the surrounding white space it is not an option. -/
def ArgumentLine (indent : Nat) (line : Str) : Prop :=
  indentOf line = indent ∧ isBlank line = false ∧ ¬ IsField (trim line)

/-- The text `text` is an argument given on line `line`, which is the marker line, behind the `first` characters of the
marker, or one of the following lines. -/
def Argument (onMarkerLine : Bool) (first indent : Nat) (line text : Str) : Prop :=
  if onMarkerLine then text = line.drop first ∧ isBlank text = false ∧ ¬ IsField text
  else text = trim line ∧ ArgumentLine indent line

end Rustla.Spec
