import Verif.Model.Basic
/-! # Command line options (`/repo/src/rustla_options.rs`) -/
namespace Rustla

/-- `OutputStream`, `/repo/src/rustla_options.rs` l.78-84. -/
inductive OutputStream where
  | stdOut
  | file
  deriving DecidableEq, Repr

/-- `ruSTLaOptions`, `/repo/src/rustla_options.rs` l.14-23. -/
structure Options where
  outputStream : OutputStream := .stdOut
  printFullDocument : Bool := false
  generateClassFile : Bool := false
  deriving DecidableEq, Repr

/-- One iteration of the loop of `ruSTLaOptions::new`, `/repo/src/rustla_options.rs` l.29-58. -/
def Options.step (o : Options) (arg : Str) : Options :=
  if arg = str! "--to-stdout" then { o with outputStream := .stdOut }
  else if arg = str! "--to-file" then { o with outputStream := .file }
  else if arg = str! "--full-doc" then { o with printFullDocument := true }
  else if arg = str! "--aplus-cls" then { o with generateClassFile := true }
  else o

/-- `ruSTLaOptions::new`, `/repo/src/rustla_options.rs` l.29-58. -/
def Options.new (args : List Str) : Options := args.foldl Options.step {}

end Rustla
