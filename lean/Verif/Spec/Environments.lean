import Verif.Model.Basic
/-!
# Specification: reading the environments of a LaTeX text

A LaTeX text is read character by character: a backslash begins a control sequence, which is a word of letters or a single
other character; a percent sign begins a comment that ends with the line; `\begin{name}` opens an environment and
`\end{name}` closes the innermost one, which must have the same name.
-/
namespace Rustla.Spec

/-- What is being read. -/
inductive Reading where
  | text
  | comment
  | backslash
  | word (w : Str)
  | name (opening : Bool) (n : Str)
  deriving DecidableEq, Repr

/-- What is being read and the names of the open environments, the innermost first. -/
abbrev Reader := Reading × List Str

/-- A character that does not continue a control word. -/
def plainRead (c : Char) : Reading :=
  if c = '\\' then .backslash else if c = '%' then .comment else .text

/-- The end of the name of an environment. -/
def closeName (opening : Bool) (n : Str) : List Str → Option (List Str)
  | stack =>
    if opening then some (n :: stack) else
      match stack with
      | m :: rest => if m = n then some rest else none
      | [] => none

/-- Read one character; `none` if an environment is closed that is not the innermost open one. -/
def readChar : Reader → Char → Option Reader
  | (.text, stack), c => some (plainRead c, stack)
  | (.comment, stack), c => some (if c = '\n' then .text else .comment, stack)
  | (.backslash, stack), c => some (if isAsciiAlpha c then .word [c] else .text, stack)
  | (.word w, stack), c =>
    if isAsciiAlpha c then some (.word (w ++ [c]), stack)
    else if c = '{' ∧ w = str! "begin" then some (.name true [], stack)
    else if c = '{' ∧ w = str! "end" then some (.name false [], stack)
    else some (plainRead c, stack)
  | (.name opening n, stack), c =>
    if c = '}' then (closeName opening n stack).map fun s => (.text, s) else some (.name opening (n ++ [c]), stack)

/-- Read a text. -/
def readText : Reader → Str → Option Reader
  | r, [] => some r
  | r, c :: cs => (readChar r c).bind fun r' => readText r' cs

/-- No command is being read that the next characters can still turn into the beginning or end of an environment. -/
def calm : Reading → Bool
  | .text => true
  | .word w => !(w.isPrefixOf (str! "begin")) && !(w.isPrefixOf (str! "end"))
  | _ => false

/-- The environments of a text are balanced: read from the start, each `\end` closes the innermost environment, and in the
end no environment is open. -/
def BalancedEnvironments (s : Str) : Prop := ∃ r, readText (.text, []) s = some (r, []) ∧ calm r = true

instance (s : Str) : Decidable (BalancedEnvironments s) :=
  match h : readText (.text, []) s with
  | none => isFalse fun ⟨_, h1, _⟩ => by rw [h] at h1; cases h1
  | some (r, stack) =>
    if h2 : stack = [] ∧ calm r = true then
      isTrue ⟨r, by rw [h, h2.1], h2.2⟩
    else isFalse fun ⟨r', h3, h4⟩ => by rw [h] at h3; cases h3; exact h2 ⟨rfl, h4⟩

example : BalancedEnvironments (str! "\\begin{a}x\\\\begin{b}\\begin{c} % \\end{d}\n\\end{c}\\end{a}") := by decide
example : ¬ BalancedEnvironments (str! "\\begin{a}\\begin{c}\\end{a}\\end{c}") := by decide
example : ¬ BalancedEnvironments (str! "\\begin{a}") := by decide
example : ¬ BalancedEnvironments (str! "\\end{a}") := by decide

end Rustla.Spec
