import Verif.Model.LatexTables
/-! # UTF-8 to LaTeX conversion (`/repo/src/utf8_to_latex.rs`) -/
namespace Rustla

/-- `UTF8_TEXT_TO_LATEX_MAP.get(&c)`, `/repo/src/utf8_to_latex.rs` l.65. -/
def textEscape? (c : Char) : Option Str := textTable.lookup c.toNat

/-- `space_based_on_next_char`, `/repo/src/utf8_to_latex.rs` l.53-63: the peeked character decides. -/
def spaceFor : Str → Str
  | [] => []
  | c :: _ => if isWs c || c == '\\' || !isAsciiAlpha c then [] else [' ']

/-- The body of the loop after the backslash treatment, `/repo/src/utf8_to_latex.rs` l.53-69. -/
def emitText (c : Char) (rest : Str) : Str :=
  match textEscape? c with
  | some e => e ++ spaceFor rest
  | none => [c]

/-- `unicode_text_to_latex`, `/repo/src/utf8_to_latex.rs` l.37-73. -/
def escapeText : Str → Str
  | [] => []
  | [c] => emitText c []
  | c :: c2 :: rest =>
    if c = '\\' then emitText c2 rest ++ escapeText rest
    else emitText c (c2 :: rest) ++ escapeText (c2 :: rest)

/-- `UTF8_MATH_TO_LATEX_MAP.get(&c)`: the last insertion for a key wins (`HashMap::insert`).
(`/repo/src/utf8_to_latex.rs` l.21-21, l.126-126) -/
def mathCommand? (c : Char) : Option Str := mathInserts.reverse.lookup c.toNat

/-- `unicode_math_to_latex`, `/repo/src/utf8_to_latex.rs` l.16-29. -/
def mathToLatex : Str → Str
  | [] => []
  | c :: cs => ((mathCommand? c).getD [c]) ++ mathToLatex cs

end Rustla
