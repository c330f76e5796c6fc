import Verif.Model.Program
import Verif.Model.Options
/-! # Reading the source and choosing the output (`/repo/src/lib.rs`, `/repo/src/doctree/larst_writer.rs`) -/
namespace Rustla

/-- What is stored in files and goes through streams.
(`/repo/src/lib.rs` l.39-39, l.62-62, l.76-76) -/
abbrev Bytes := List UInt8

/-- `str::as_bytes`: the UTF-8 encoding.
(`/repo/src/doctree/larst_writer.rs` l.87-87, l.141-141, l.157-157) -/
def encode (s : Str) : Bytes := s.flatMap String.utf8EncodeChar

/-- `str::from_utf8`: the text encoded by some bytes, if there is one.  The decoder is the one of Lean's library, which is
proved there to invert the encoder.
(`/repo/src/lib.rs` l.39-49, `/repo/src/doctree/mod.rs` l.81-101) -/
def decode (bs : Bytes) : Option Str := bs.toByteArray.utf8Decode?.map Array.toList

/-- The calls of `BufRead::read_until(b'\n')` behind `BufRead::lines`, `/repo/src/lib.rs` l.39-39, l.62-62, l.76-76: the
pieces of the input up to and including each line feed, and what follows the last one, if anything does.  `cur` is
what has been read of the current piece. -/
def pieces : Bytes → Bytes → List Bytes
  | cur, [] => if cur.isEmpty then [] else [cur]
  | cur, b :: bs => if b = 10 then (cur ++ [b]) :: pieces [] bs else pieces (cur ++ [b]) bs

/-- The end of `Lines::next` of the standard library: a line feed at the end is removed, and then a carriage return.
(`/repo/src/lib.rs` l.39-39, l.62-62, l.76-76, `/repo/src/common.rs` l.28-30) -/
def chomp (s : Str) : Str :=
  if s.getLast? = some '\n' then
    if s.dropLast.getLast? = some '\r' then s.dropLast.dropLast else s.dropLast
  else s

/-- The loops that fill `src_lines`, `/repo/src/lib.rs` l.39-49, l.62-71, l.76-86: the first piece that is not valid UTF-8
ends the program with an error. -/
def sourceLines (bs : Bytes) : Option (List Str) := (pieces [] bs).mapM fun p => (decode p).map chomp

/-- An input: the bytes it delivers, and whether reading fails after them (as it does for a directory).
(`/repo/src/lib.rs` l.38-49, l.53-71) -/
structure Stream where
  bytes : Bytes
  broken : Bool := false
  deriving DecidableEq, Repr

/-- Reading all lines of an input, `/repo/src/lib.rs` l.39-49, l.62-71, l.76-86. -/
def Stream.lines (s : Stream) : Option (List Str) := if s.broken then none else sourceLines s.bytes

/-- A path returned by `std::fs::canonicalize`: the names from the root on.
(`/repo/src/lib.rs` l.52-52) -/
abbrev Path := List Bytes

/-- `.`.
(`/repo/src/doctree/mod.rs` l.81-90) -/
def dot : UInt8 := 46

/-- What stands before the last dot of a name: `None` without a dot.  Part of `rsplit_file_at_dot` of the standard
library.
(`/repo/src/doctree/mod.rs` l.81-90) -/
def beforeLastDot : Bytes → Option Bytes
  | [] => none
  | b :: bs => match beforeLastDot bs with
    | some r => some (b :: r)
    | none => if b = dot then some [] else none

/-- `Path::file_stem` of a name: all of it if there is no dot or the only dot comes first.
(`/repo/src/doctree/mod.rs` l.81-90) -/
def stemOf (name : Bytes) : Bytes :=
  match beforeLastDot name with
  | none => name
  | some r => if r.isEmpty then name else r

/-- `Path::to_str` of a canonical path.
(`/repo/src/doctree/mod.rs` l.92-101) -/
def pathText (p : Path) : Option Str :=
  if p.isEmpty then some (str! "/") else (p.mapM decode).map fun ns => ns.flatMap fun n => '/' :: n

/-- The file stem stored by `DocTree::new`, `/repo/src/doctree/mod.rs` l.81-90; `none` is the empty path used for standard
input. -/
def docStem (path : Option Path) : Run Str :=
  match path.bind List.getLast? with
  | none => .ok []
  | some name => match decode (stemOf name) with
    | some s => .ok s
    | none => .error (.explicit "doctree/mod.rs new")

/-- The folder stored by `DocTree::new`, `/repo/src/doctree/mod.rs` l.92-101. -/
def docFolder (path : Option Path) : Run Str :=
  match path with
  | none => .ok []
  | some [] => .ok []
  | some (n :: ns) => match pathText (n :: ns).dropLast with
    | some s => .ok s
    | none => .error (.explicit "doctree/mod.rs new")

/-- `MainError`, `/repo/src/lib.rs` l.143-154: the two errors that `run` returns. -/
inductive MainError where
  | path
  | input
  deriving DecidableEq, Repr

/-- What the operating system answers.
(`/repo/src/lib.rs` l.23-114, `/repo/src/doctree/larst_writer.rs` l.21-94) -/
structure World where
  stdin : Stream
  /-- `std::fs::canonicalize` -/
  canonical : Str → Option Path
  /-- `std::fs::File::open` -/
  opened : Path → Option Stream
  /-- whether a file can be created or opened for writing -/
  writable : Path → Bool
  /-- the number of bytes accepted by the n-th call of `write`, `none` for an error -/
  accepts : Nat → Option Nat

/-- Reading standard input, `/repo/src/lib.rs` l.38-51, l.75-87. -/
def stdinSource (w : World) : Except MainError (Option Path × List Str) :=
  match w.stdin.lines with
  | some ls => .ok (none, ls)
  | none => .error .input

/-- Reading a file, `/repo/src/lib.rs` l.52-73. -/
def fileSource (w : World) (p : Path) : Except MainError (Option Path × List Str) :=
  match w.opened p with
  | none => .error .path
  | some s => match s.lines with
    | some ls => .ok (some p, ls)
    | none => .error .input

/-- The choice of the input, `/repo/src/lib.rs` l.31-91: the last argument, if it names something that exists, and standard
input otherwise.  The first argument (the program itself) is part of `args`, as in Rust; without it (l.89-91, unreachable)
the model reads standard input. -/
def readSource (w : World) (args : List Str) : Except MainError (Option Path × List Str) :=
  match args.getLast? with
  | none => stdinSource w
  | some a =>
    if args.length = 1 then stdinSource w
    else match w.canonical a with
      | none => stdinSource w
      | some p => fileSource w p

/-- Where something is written.
(`/repo/src/doctree/larst_writer.rs` l.24-60) -/
inductive Target where
  | stdout
  | file (path : Path)
  deriving DecidableEq, Repr

/-- What the program does to the world.
(`/repo/src/doctree/larst_writer.rs` l.43-94) -/
inductive Effect where
  /-- a file is created, or emptied if it exists -/
  | truncate (path : Path)
  /-- bytes accepted by a stream -/
  | put (target : Target) (bytes : Bytes)
  deriving DecidableEq, Repr

/-- How the program ends.
(`/repo/src/lib.rs` l.23-114) -/
inductive Ending where
  | done
  | failed (e : MainError)
  | panicked (p : Panic)
  deriving DecidableEq, Repr

/-- What the program did, and how it ended.
(`/repo/src/lib.rs` l.23-114) -/
structure Trace where
  effects : List Effect
  ending : Ending
  deriving DecidableEq, Repr

/-- The calls of `write` with the given chunks, `/repo/src/doctree/larst_writer.rs` l.140-166: the number of accepted bytes
is not looked at.  `n` counts the calls; the result tells how many calls were made if none failed. -/
def putChunks (w : World) (t : Target) : Nat → List Str → List Effect × Option Nat
  | n, [] => ([], some n)
  | n, c :: cs => match w.accepts n with
    | none => ([], none)
    | some k =>
      let r := putChunks w t (n + 1) cs
      (.put t ((encode c).take k) :: r.1, r.2)

/-- The part of `DocTree::write_to_larst` behind the choice of the stream, `/repo/src/doctree/larst_writer.rs` l.62-93. -/
def writeTo (w : World) (o : Options) (cls : Str) (out : Written) (t : Target) (folder : Path) : Trace :=
  let r := putChunks w t 0 out.chunks
  match r.2, out.panic with
  | none, _ => ⟨r.1, .panicked (.explicit "larst_writer.rs write")⟩
  | some _, some p => ⟨r.1, .panicked p⟩
  | some n, none =>
    if o.outputStream = .file ∧ o.generateClassFile = true then
      let q := folder ++ [encode (str! "aplus.cls")]
      if w.writable q = false then ⟨r.1, .panicked (.explicit "larst_writer.rs write_to_larst")⟩
      else
        let r' := putChunks w (.file q) n [cls]
        match r'.2 with
        | none => ⟨r.1 ++ .truncate q :: r'.1, .panicked (.explicit "larst_writer.rs write_to_larst")⟩
        | some _ => ⟨r.1 ++ .truncate q :: r'.1, .done⟩
    else ⟨r.1, .done⟩

/-- `DocTree::write_to_larst`, `/repo/src/doctree/larst_writer.rs` l.21-94.  `cls` is the constant text of the A+ class file
(l.1482-1740).  The paths built from the stored folder and stem are those of the source with another last name. -/
def writeOut (env : WriterEnv) (w : World) (o : Options) (cls : Str) (path : Option Path) (d : DocTree) : Trace :=
  match o.outputStream with
  | .stdOut => writeTo w o cls (writeZipper env d.tree) .stdout []
  | .file =>
    if d.fileFolder.isEmpty || d.filenameStem.isEmpty then ⟨[], .panicked (.explicit "larst_writer.rs write_to_larst")⟩
    else
      let folder := (path.getD []).dropLast
      let q := folder ++ [encode (d.filenameStem ++ str! ".tex")]
      if w.writable q = false then ⟨[], .panicked (.explicit "larst_writer.rs write_to_larst")⟩
      else
        let r := writeTo w o cls (writeZipper env d.tree) (.file q) folder
        ⟨.truncate q :: r.effects, r.ending⟩

/-- `run` from the construction of the document tree on, `/repo/src/lib.rs` l.94-114. -/
def process (fuel : Nat) (env : WriterEnv) (w : World) (cls : Str) (o : Options) (path : Option Path) (lines : List Str) :
    Trace :=
  match docStem path, docFolder path with
  | .error p, _ => ⟨[], .panicked p⟩
  | .ok _, .error p => ⟨[], .panicked p⟩
  | .ok stem, .ok folder => match parseDocument fuel stem folder lines with
    | .error p => ⟨[], .panicked p⟩
    | .ok r => match r.doc.transform with
      | .error p => ⟨[], .panicked p⟩
      | .ok d => writeOut env w o cls path d

/-- `run`, `/repo/src/lib.rs` l.23-114.  The writer's `--full-doc` switch is taken from the options. -/
def run (fuel : Nat) (env : WriterEnv) (w : World) (cls : Str) (args : List Str) : Trace :=
  let o := Options.new args
  match readSource w args with
  | .error e => ⟨[], .failed e⟩
  | .ok (path, lines) => process fuel { env with fullDocument := o.printFullDocument } w cls o path lines

end Rustla
