import Verif.Spec.Plain
/-!
# Specification of directives

A directive is given by its name, the text behind its marker and its options.
-/
namespace Rustla.Spec

/-- A line behind some spaces. -/
def indentLine (i : Nat) (l : Str) : Str := List.replicate i ' ' ++ l

/-- A text behind a marker, with a space between them if there is a text. -/
def behind (t : Str) : Str := if t = [] then [] else ' ' :: t

/-- Characters that may stand between two letters or digits of a name. -/
def separators : List Char := ['-', '+', '.', '_', ':']

/-- Letters, digits and single separators in front of letters or digits. -/
def NameTail : Str → Prop
  | [] => True
  | [c] => c.isAlphanum = true
  | c :: d :: t => (c.isAlphanum = true ∨ c ∈ separators ∧ d.isAlphanum = true) ∧ NameTail (d :: t)

/-- The name of a directive. -/
def DirName (name : Str) : Prop :=
  ∃ a b t, name = a :: b :: t ∧ a.isAlpha = true ∧ b.isAlphanum = true ∧ NameTail t

/-- A directive: its name, the text behind the marker and the options. -/
structure Dir where
  name : Str
  arg : Str
  opts : List (Str × Str)

/-- The first line of a directive without its indentation. -/
def Dir.marker (d : Dir) : Str := str! ".. " ++ d.name ++ str! "::" ++ behind d.arg

/-- The line of an option without its indentation. -/
def optionLine (o : Str × Str) : Str := ':' :: (o.1 ++ ':' :: behind o.2)

/-- The lines of a directive: the options are indented by three more spaces. -/
def Dir.lines (i : Nat) (d : Dir) : List Str :=
  indentLine i d.marker :: d.opts.map fun o => indentLine (i + 3) (optionLine o)

/-- The value of an option: the last one that is given. -/
def Dir.get (d : Dir) (key : Str) : Option Str := (d.opts.reverse.find? fun o => o.1 = key).map (·.2)

/-- Text that starts with something visible and stands on one line. -/
def Inset (t : Str) : Prop := (∃ c, t.head? = some c ∧ isWs c = false) ∧ '\n' ∉ t

/-- Text that starts and ends with something visible and stands on one line. -/
def Snug (t : Str) : Prop := Inset t ∧ ∃ c, t.getLast? = some c ∧ isWs c = false

/-- A well-formed option. -/
structure OptionOk (o : Str × Str) : Prop where
  key : Snug o.1
  plain : ':' ∉ o.1 ∧ '\\' ∉ o.1
  value : o.2 = [] ∨ Snug o.2

/-- A well-formed directive; its text is not an option. -/
structure Dir.Ok (d : Dir) : Prop where
  name : DirName d.name
  arg : d.arg = [] ∨ (Inset d.arg ∧ ¬ FieldMarked d.arg)
  opts : ∀ o ∈ d.opts, OptionOk o

end Rustla.Spec
