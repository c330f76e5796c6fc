import Verif.Model.Parser
import Verif.Model.Transforms
import Verif.Model.Writer
import Verif.Spec.Outline
/-! # The program as a whole (`/repo/src/lib.rs`) -/
namespace Rustla

/-- `run` from the construction of the parser on, `/repo/src/lib.rs` l.96-118: parse, transform (also after a failed
parse) and write.  A panic of the parser or of the transforms comes before anything is written.
Simplification: reading the input and opening the output file succeed. -/
def transpile (fuel : Nat) (w : WriterEnv) (stem folder : Str) (lines : List Str) : Written :=
  match parseDocument fuel stem folder lines with
  | .error p => { chunks := [], panic := some p }
  | .ok r => match r.doc.transform with
    | .error p => { chunks := [], panic := some p }
    | .ok d => writeZipper w d.tree

end Rustla
