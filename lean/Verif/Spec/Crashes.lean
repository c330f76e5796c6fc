import Verif.Model.Parser
/-!
# The ways in which the parser crashes

The reasons for which the parser of the program stops with a panic, as positions in the source code of the program.
-/
namespace Rustla

/-- The reasons for a crash of the parser: a PEP number with more than four characters; a directive with content at the
end of the source; a line of two colons in a nested block; an item of a list where no list is open; the directives
`footnotes` and `citations`; column widths that are no numbers; a hyperlink target or a paragraph of a questionnaire that
consists of an inline target. -/
def crashReasons : List Panic :=
  [.underflow "inline.rs interpreted_text 4 - content_len",
   .unwrapNone "mod.rs read_indented_block first line",
   .underflow "body.rs parse_paragraph",
   .explicit "bullet_list.rs bullet",
   .todo "body.rs directive",
   .explicit "directive_parsers.rs parse_list_table widths",
   .explicit "body.rs hyperlink_target",
   .explicit "aplus_questionnaire.rs text"]

/-- The reasons for a crash of the program behind the parser: a row of a list table without cells; a list table without
columns; a kind of node that the writer does not know. -/
def laterCrashReasons : List Panic :=
  [.underflow "restructuredtext_transforms.rs n_of_entries - 1",
   .explicit "larst_writer.rs ListTable",
   .todo "larst_writer.rs larst_pre_order_string"]

/-- Size of a text: its characters and line ends. -/
def textSize (lines : List Str) : Nat := (lines.map fun l => l.length + 1).sum

/-- Bound on the number of states that a parser of a text of the given size leaves behind. -/
def statesBound : Nat → Nat
  | 0 => 21
  | n + 1 => (12 * (n + 1) + 10) * (statesBound n + 1) + 1

/-- Bound on the number of rounds of a parser of a text of the given size, and on the depth of its nested parsers. -/
def roundsBound (size : Nat) : Nat := statesBound size + 2

end Rustla
