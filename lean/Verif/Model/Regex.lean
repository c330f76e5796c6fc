import Verif.Model.Unicode
/-! # Regular expressions

A model of the part of the `regex` crate that `/repo/src/parser` uses: matching a pattern that starts with
`^` at the beginning of a text, with leftmost-first (Perl-like) preference and capture groups. -/
namespace Rustla

/-- Capture groups of the patterns in `/repo/src/parser/regex_patterns.rs`: named groups under their names,
unnamed groups under their index (`g1`, `g2`, ...). -/
inductive Grp where
  | g1 | g2 | indent | arabicParens | lowerRomanParens | upperRomanParens | lowerAlphaParens |
  upperAlphaParens | autoEnumeratorParens | arabicRparen | lowerRomanRparen | upperRomanRparen |
  lowerAlphaRparen | upperAlphaRparen | autoEnumeratorRparen | arabicPeriod | lowerRomanPeriod |
  upperRomanPeriod | lowerAlphaPeriod | upperAlphaPeriod | autoEnumeratorPeriod | afterMarker |
  manual | autonumbered | simplename | autosymbol | lookbehind | markupStart | content | markupEnd |
  lookahead | frontRoleMarker | frontRole | backRoleMarker | backRole | embededUriContainer |
  embeddedUri | refType | number | autoNumber | autoNumberLabel | g7 | symbol | absolute | scheme |
  authority | g6 | userinfo | host | port | path | query | fragment | email | preSelected | correct
  | label | answer | neutral | unit | key | difficulty | maxPoints | showNotAnswered | hint
  deriving DecidableEq, Repr

/-- Rust regex `\S`, used in `/repo/src/parser/regex_patterns.rs`. -/
def nonWs (c : Char) : Bool := !isWs c

/-- Syntax of regular expressions (the constructs used in `/repo/src/parser/regex_patterns.rs`). -/
inductive Re where
  | eps
  | cls (p : Char → Bool)
  | seq (a b : Re)
  | alt (a b : Re)
  | star (greedy : Bool) (r : Re)
  | cap (g : Grp) (r : Re)
  | eos

/-- A literal character.
(`/repo/src/parser/regex_patterns.rs` l.1-568) -/
def Re.chr (c : Char) : Re := .cls (· == c)

/-- A literal text.
(`/repo/src/parser/regex_patterns.rs` l.1-568) -/
def Re.lit : Str → Re
  | [] => .eps
  | [c] => .chr c
  | c :: cs => .seq (.chr c) (.lit cs)

/-- `r?`.
(`/repo/src/parser/regex_patterns.rs` l.1-568) -/
def Re.opt (r : Re) : Re := .alt r .eps

/-- `r+` (or the lazy `r+?`).
(`/repo/src/parser/regex_patterns.rs` l.1-568) -/
def Re.plus (greedy : Bool) (r : Re) : Re := .seq r (.star greedy r)

/-- `r1|r2|...`.
(`/repo/src/parser/regex_patterns.rs` l.1-568) -/
def Re.alts : List Re → Re
  | [] => .eps
  | [r] => r
  | r :: rs => .alt r (.alts rs)

/-- up to `n` optional repetitions.
(`/repo/src/parser/regex_patterns.rs` l.1-568) -/
def Re.upTo : Nat → Re → Re
  | 0, _ => .eps
  | n + 1, r => .opt (.seq r (.upTo n r))

/-- `r{lo,hi}`.
(`/repo/src/parser/regex_patterns.rs` l.1-568) -/
def Re.rep : Nat → Nat → Re → Re
  | 0, hi, r => .upTo hi r
  | lo + 1, hi, r => .seq r (.rep lo (hi - 1) r)

/-- Captured texts, latest first: `regex::Captures`.
(`/repo/src/parser/mod.rs` l.193-193, l.432-432, `/repo/src/parser/state_machine/body.rs` l.1625-1625, l.1884-1888) -/
abbrev Caps := List (Grp × Str)

/-- All results of repeating `f` (a matcher), in order of preference.  `n` bounds the number of rounds; every
round has to consume something, so the length of the text is enough.
(`/repo/src/parser/mod.rs` l.193-193, l.432-432, `/repo/src/parser/state_machine/body.rs` l.1625-1625, l.1884-1888) -/
def starRun (greedy : Bool) (f : Str → Caps → List (Str × Caps)) : Nat → Str → Caps → List (Str × Caps)
  | 0, s, cs => [(s, cs)]
  | n + 1, s, cs =>
    let more := (f s cs).flatMap fun r => if r.1.length < s.length then starRun greedy f n r.1 r.2 else []
    if greedy then more ++ [(s, cs)] else (s, cs) :: more

/-- All ways to match a prefix of the text, in order of preference: the unmatched rest and the captures.
Models the leftmost-first semantics of the `regex` crate.
(`/repo/src/parser/mod.rs` l.193-193, l.432-432, `/repo/src/parser/state_machine/body.rs` l.1625-1625, l.1884-1888) -/
def Re.run : Re → Str → Caps → List (Str × Caps)
  | .eps, s, cs => [(s, cs)]
  | .cls _, [], _ => []
  | .cls p, c :: s, cs => if p c then [(s, cs)] else []
  | .seq a b, s, cs => (a.run s cs).flatMap fun r => b.run r.1 r.2
  | .alt a b, s, cs => a.run s cs ++ b.run s cs
  | .star g r, s, cs => starRun g r.run s.length s cs
  | .cap g r, s, cs => (r.run s cs).map fun q => (q.1, (g, s.take (s.length - q.1.length)) :: q.2)
  | .eos, s, cs => if s.isEmpty then [(s, cs)] else []

/-- A match: `captures.get(0)` and the groups.
(`/repo/src/parser/mod.rs` l.193-193, l.432-432, `/repo/src/parser/state_machine/body.rs` l.1625-1625, l.1884-1888) -/
structure Match where
  whole : Str
  rest : Str
  caps : Caps

/-- `Regex::captures` of a pattern starting with `^`.
(`/repo/src/parser/mod.rs` l.193-193, l.432-432, `/repo/src/parser/state_machine/body.rs` l.1625-1625, l.1884-1888) -/
def Re.captures (r : Re) (s : Str) : Option Match :=
  match r.run s [] with
  | [] => none
  | q :: _ => some ⟨s.take (s.length - q.1.length), q.1, q.2⟩

/-- `Regex::is_match` of a pattern starting with `^`.
(`/repo/src/parser/mod.rs` l.193-193, l.432-432, `/repo/src/parser/state_machine/body.rs` l.1625-1625, l.1884-1888) -/
def Re.isMatch (r : Re) (s : Str) : Bool := !(r.run s []).isEmpty

/-- `Captures::name` / `Captures::get`.
(`/repo/src/parser/mod.rs` l.193-193, l.432-432, `/repo/src/parser/state_machine/body.rs` l.1625-1625, l.1884-1888) -/
def Match.get (m : Match) (g : Grp) : Option Str := (m.caps.find? (·.1 = g)).map (·.2)

end Rustla
