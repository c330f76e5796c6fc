import Verif.Model.Basic
/-! # Utilities (`/repo/src/common.rs`) -/
namespace Rustla

/-- ASCII lower-casing of one character.  `normalize_refname` uses Rust's full Unicode `to_lowercase`;
the theorems about it take the case mapping as a parameter, and this is the instance used by the
executable parser model (simplification: non-ASCII letters keep their case).
(`/repo/src/common.rs` l.44-44) -/
def lowerAscii (c : Char) : Char := if 0x41 ≤ c.toNat ∧ c.toNat ≤ 0x5A then Char.ofNat (c.toNat + 32) else c

/-- `normalize_refname`, `/repo/src/common.rs` l.40-46, for a given lower-casing of single characters.
Simplification: Rust's context dependent treatment of a final Greek sigma is not modelled. -/
def normalizeRefnameWith (lower : Char → Str) (name : Str) : Str :=
  (joinWith [' '] (splitWs name)).flatMap lower

/-- `normalize_refname` with ASCII case folding.
(`/repo/src/common.rs` l.37-45) -/
def normalizeRefname (name : Str) : Str := normalizeRefnameWith (fun c => [lowerAscii c]) name

/-- Rust `to_lowercase` with ASCII case folding.
(`/repo/src/parser/state_machine/body.rs` l.751-756, `/repo/src/doctree/larst_writer.rs` l.611-611, l.1253-1253) -/
def toLower (s : Str) : Str := s.map lowerAscii

/-- The loop of `strip_indent`, `/repo/src/common.rs` l.53-69.  `chars.next().unwrap()` panics when the
line is shorter than the requested amount. -/
def stripIndentLoop : Nat → Str → Run (Option Str)
  | 0, s => .ok (some s)
  | _ + 1, [] => .error (.unwrapNone "common.rs strip_indent")
  | n + 1, c :: cs => if isWs c then stripIndentLoop n cs else .ok none

/-- `strip_indent`, `/repo/src/common.rs` l.53-69; `none` is `Err`. -/
def stripIndent (line : Str) (amount : Nat) : Run (Option Str) :=
  if line.isEmpty then .ok (some line) else stripIndentLoop amount line

end Rustla
