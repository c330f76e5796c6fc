import Verif.Model.Driver
/-! # Specification of reading sources and of the effects of the program -/
namespace Rustla.Spec
open Rustla

/-- `Encodes ls bs`: the bytes `bs` are the UTF-8 encoding of a text with the lines `ls`, each ended by LF or CR LF; the
last line may lack its ending unless it is empty.  A line contains no LF; before a bare LF it does not end in CR. -/
inductive Encodes : List Str → Bytes → Prop
  | nil : Encodes [] []
  | last (l : Str) (hn : l ≠ []) (hl : '\n' ∉ l) : Encodes [l] (encode l)
  | lf (l : Str) (hl : '\n' ∉ l) (hr : l.getLast? ≠ some '\r') {ls : List Str} {bs : Bytes} (h : Encodes ls bs) :
      Encodes (l :: ls) (encode (l ++ ['\n']) ++ bs)
  | crlf (l : Str) (hl : '\n' ∉ l) {ls : List Str} {bs : Bytes} (h : Encodes ls bs) :
      Encodes (l :: ls) (encode (l ++ ['\r', '\n']) ++ bs)

/-- The bytes are the UTF-8 encoding of some text. -/
def Utf8 (bs : Bytes) : Prop := ∃ s : Str, encode s = bs

/-- The effect touches the file. -/
def Touches (p : Path) : Effect → Prop
  | .truncate q => q = p
  | .put (.file q) _ => q = p
  | .put .stdout _ => False

/-- The bytes that have arrived at a place, starting from what was there. -/
def arrive (t : Target) (old : Bytes) : List Effect → Bytes
  | [] => old
  | .truncate q :: es => arrive t (if t = .file q then [] else old) es
  | .put u bs :: es => arrive t (if u = t then old ++ bs else old) es

/-- The file next to `p` with the given name. -/
def beside (p : Path) (name : Bytes) : Path := p.dropLast ++ [name]

/-- The name has the given ending. -/
def EndsIn (name suffix : Bytes) : Prop := ∃ r, name = r ++ suffix

/-- `stem` is the name without its extension: a non-empty part before a dot that no further dot follows; a name without
such a dot is its own stem. -/
def StemOf (name stem : Bytes) : Prop :=
  (stem ≠ [] ∧ ∃ ext, name = stem ++ dot :: ext ∧ dot ∉ ext) ∨
  (stem = name ∧ ∀ a b, name = a ++ dot :: b → dot ∉ b → a = [])

/-- The stem of a file name as a text: what stands before its last dot, or all of it if there is no dot behind its first character. -/
def Stem (name stem : Str) : Prop :=
  (stem ≠ [] ∧ ∃ ext, name = stem ++ '.' :: ext ∧ '.' ∉ ext) ∨ (stem = name ∧ '.' ∉ name.tail)

/-- `Source w args bs path`: the program gets the bytes `bs` from standard input if there is no argument or the last one names nothing that exists
(`path` is `none`), and otherwise from the file that the last argument names. -/
inductive Source (w : World) (args : List Str) (bs : Bytes) : Option Path → Prop
  | alone (h : args.length = 1) (hin : w.stdin = ⟨bs, false⟩) : Source w args bs none
  | stdin (a : Str) (h : args.getLast? = some a) (hc : w.canonical a = none) (hin : w.stdin = ⟨bs, false⟩) : Source w args bs none
  | file (a : Str) (q : Path) (hn : 2 ≤ args.length) (h : args.getLast? = some a) (hc : w.canonical a = some q)
      (hin : w.opened q = some ⟨bs, false⟩) : Source w args bs (some q)

/-- Every write is accepted as a whole if it has at most `n` bytes. -/
def Accepts (w : World) (n : Nat) : Prop := ∀ i, ∃ k, w.accepts i = some k ∧ n ≤ k

/-- What is written for a text: with the option for full documents it stands between the beginning and the end of a LaTeX document. -/
def fullText (full : Bool) (t : Str) : Str :=
  if full then str! "\\documentclass{aplus}\n\\begin{document}\n\n" ++ t ++ str! "\\end{document}\n" else t

end Rustla.Spec
