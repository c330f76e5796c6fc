import Verif.Model.DocTree
import Verif.Model.Patterns
import Verif.Model.Latex
import Verif.Model.Lines
/-! # Inline parsing (`/repo/src/parser/state_machine/inline.rs`, `/repo/src/parser/mod.rs` l.375-440) -/
namespace Rustla

/-- `OPENERS`, `/repo/src/parser/state_machine/inline.rs` l.1039-1055, as code points. -/
def openers : List Nat :=
  [0x22, 0x27, 0x28, 0x3c, 0x5c, 0x5b, 0x7b, 0xf3a, 0xf3c, 0x169b, 0x2045, 0x207d, 0x208d, 0x2329,
   0x2768, 0x276a, 0x276c, 0x276e, 0x2770, 0x2772, 0x2774, 0x27c5, 0x27e6, 0x27e8, 0x27ea, 0x27ec,
   0x27ee, 0x2983, 0x2985, 0x2987, 0x2989, 0x298b, 0x298d, 0x298f, 0x2991, 0x2993, 0x2995, 0x2997,
   0x29d8, 0x29da, 0x29fc, 0x2e22, 0x2e24, 0x2e26, 0x2e28, 0x3008, 0x300a, 0x300c, 0x300e, 0x3010,
   0x3014, 0x3016, 0x3018, 0x301a, 0x301d, 0x301d, 0xfd3e, 0xfe17, 0xfe35, 0xfe37, 0xfe39, 0xfe3b,
   0xfe3d, 0xfe3f, 0xfe41, 0xfe43, 0xfe47, 0xfe59, 0xfe5b, 0xfe5d, 0xff08, 0xff3b, 0xff5b, 0xff5f,
   0xff62, 0xab, 0x2018, 0x201c, 0x2039, 0x2e02, 0x2e04, 0x2e09, 0x2e0c, 0x2e1c, 0x2e20, 0x201a,
   0x201e, 0xbb, 0x2019, 0x201d, 0x203a, 0x2e03, 0x2e05, 0x2e0a, 0x2e0d, 0x2e1d, 0x2e21, 0x201b,
   0x201f, 0xbb, 0x2018, 0x2019, 0x201a, 0x201a, 0x201c, 0x201e, 0x201e, 0x201d, 0x203a]

/-- `CLOSERS`, `/repo/src/parser/state_machine/inline.rs` l.1060-1076, as code points. -/
def closers : List Nat :=
  [0x22, 0x27, 0x29, 0x3e, 0x5c, 0x5d, 0x7d, 0xf3b, 0xf3d, 0x169c, 0x2046, 0x207e, 0x208e, 0x232a,
   0x2769, 0x276b, 0x276d, 0x276f, 0x2771, 0x2773, 0x2775, 0x27c6, 0x27e7, 0x27e9, 0x27eb, 0x27ed,
   0x27ef, 0x2984, 0x2986, 0x2988, 0x298a, 0x298c, 0x298e, 0x2990, 0x2992, 0x2994, 0x2996, 0x2998,
   0x29d9, 0x29db, 0x29fd, 0x2e23, 0x2e25, 0x2e27, 0x2e29, 0x3009, 0x300b, 0x300d, 0x300f, 0x3011,
   0x3015, 0x3017, 0x3019, 0x301b, 0x301e, 0x301f, 0xfd3f, 0xfe18, 0xfe36, 0xfe38, 0xfe3a, 0xfe3c,
   0xfe3e, 0xfe40, 0xfe42, 0xfe44, 0xfe48, 0xfe5a, 0xfe5c, 0xfe5e, 0xff09, 0xff3d, 0xff5d, 0xff60,
   0xff63, 0xbb, 0x2019, 0x201d, 0x203a, 0x2e03, 0x2e05, 0x2e0a, 0x2e0d, 0x2e1d, 0x2e21, 0x201b,
   0x201f, 0xab, 0x2018, 0x201c, 0x2039, 0x2e02, 0x2e04, 0x2e09, 0x2e0c, 0x2e1c, 0x2e20, 0x201a,
   0x201e, 0xbb, 0x201a, 0x2019, 0x2018, 0x2019, 0x201e, 0x201c, 0x201d, 0x201d, 0x203a]

/-- `DELIMITERS`, `/repo/src/parser/state_machine/inline.rs` l.1083-1110, as code points. -/
def delimiters : List Nat :=
  [0x22, 0x5c, 0x2d, 0x2f, 0x3a, 0x7d, 0x58a, 0xa1, 0xb7, 0xbf, 0x37e, 0x387, 0x55a, 0x2d, 0x55f,
   0x589, 0x5be, 0x5c0, 0x5c3, 0x5c6, 0x5f3, 0x5f4, 0x609, 0x60a, 0x60c, 0x60d, 0x61b, 0x61e, 0x61f,
   0x66a, 0x2d, 0x66d, 0x6d4, 0x700, 0x2d, 0x70d, 0x7f7, 0x2d, 0x7f9, 0x830, 0x2d, 0x83e, 0x964,
   0x965, 0x970, 0xdf4, 0xe4f, 0xe5a, 0xe5b, 0xf04, 0x2d, 0xf12, 0xf85, 0xfd0, 0x2d, 0xfd4, 0x104a,
   0x2d, 0x104f, 0x10fb, 0x1361, 0x2d, 0x1368, 0x1400, 0x166d, 0x166e, 0x16eb, 0x2d, 0x16ed, 0x1735,
   0x1736, 0x17d4, 0x2d, 0x17d6, 0x17d8, 0x2d, 0x17da, 0x1800, 0x2d, 0x180a, 0x1944, 0x1945, 0x19de,
   0x19df, 0x1a1e, 0x1a1f, 0x1aa0, 0x2d, 0x1aa6, 0x1aa8, 0x2d, 0x1aad, 0x1b5a, 0x2d, 0x1b60, 0x1c3b,
   0x2d, 0x1c3f, 0x1c7e, 0x1c7f, 0x1cd3, 0x2010, 0x2d, 0x2017, 0x2020, 0x2d, 0x2027, 0x2030, 0x2d,
   0x2038, 0x203b, 0x2d, 0x203e, 0x2041, 0x2d, 0x2043, 0x2047, 0x2d, 0x2051, 0x2053, 0x2055, 0x2d,
   0x205e, 0x2cf9, 0x2d, 0x2cfc, 0x2cfe, 0x2cff, 0x2e00, 0x2e01, 0x2e06, 0x2d, 0x2e08, 0x2e0b,
   0x2e0e, 0x2d, 0x2e1b, 0x2e1e, 0x2e1f, 0x2e2a, 0x2d, 0x2e2e, 0x2e30, 0x2e31, 0x3001, 0x2d, 0x3003,
   0x301c, 0x3030, 0x303d, 0x30a0, 0x30fb, 0xa4fe, 0xa4ff, 0xa60d, 0x2d, 0xa60f, 0xa673, 0xa67e,
   0xa6f2, 0x2d, 0xa6f7, 0xa874, 0x2d, 0xa877, 0xa8ce, 0xa8cf, 0xa8f8, 0x2d, 0xa8fa, 0xa92e, 0xa92f,
   0xa95f, 0xa9c1, 0x2d, 0xa9cd, 0xa9de, 0xa9df, 0xaa5c, 0x2d, 0xaa5f, 0xaade, 0xaadf, 0xabeb,
   0xfe10, 0x2d, 0xfe16, 0xfe19, 0xfe30, 0x2d, 0xfe32, 0xfe45, 0xfe46, 0xfe49, 0x2d, 0xfe4c, 0xfe50,
   0x2d, 0xfe52, 0xfe54, 0x2d, 0xfe58, 0xfe5f, 0x2d, 0xfe61, 0xfe63, 0xfe68, 0xfe6a, 0xfe6b, 0xff01,
   0x2d, 0xff03, 0xff05, 0x2d, 0xff07, 0xff0a, 0xff0c, 0x2d, 0xff0f, 0xff1a, 0xff1b, 0xff1f, 0xff20,
   0xff3c, 0xff61, 0xff64, 0xff65]

/-- Rust `start.ends_with(c)` for a character given by its code point.
(`/repo/src/parser/state_machine/inline.rs` l.1022-1028) -/
def endsWithCp (s : Str) (n : Nat) : Bool := (s.getLast?.map Char.toNat) == some n

/-- Rust `end.starts_with(c)` for a character given by its code point.
(`/repo/src/parser/state_machine/inline.rs` l.1022-1028) -/
def startsWithCp (s : Str) (n : Nat) : Bool := (s.head?.map Char.toNat) == some n

/-- `quotation_matches`, `/repo/src/parser/state_machine/inline.rs` l.1020-1034. -/
def quotationMatches (start end_ : Str) : Bool :=
  ((openers.zip closers).any fun oc => endsWithCp start oc.1 && startsWithCp end_ oc.2) ||
  (delimiters.any fun c => endsWithCp start c && startsWithCp end_ c)

/-- `captures.name(..)` with the default `""`, as in `/repo/src/parser/state_machine/inline.rs` l.47-51. -/
def Match.getD (m : Match) (g : Grp) : Str := (m.get g).getD []

/-- `captures.name(..).unwrap().as_str()`, as in `/repo/src/parser/state_machine/inline.rs` l.52. -/
def Match.need (m : Match) (g : Grp) : Run Str :=
  match m.get g with
  | some s => .ok s
  | none => .error (.unwrapNone "inline.rs captures")

/-- What an inline parsing function returns, with the (optional) document it may have changed:
`InlineParsingMethod`, `/repo/src/parser/types_and_aliases.rs` l.45-49. -/
abbrev InlineOut := List NodeType × Nat × Option DocTree

/-- The `Text` node made of a look-behind string (or of nothing), e.g.
`/repo/src/parser/state_machine/inline.rs` l.91-98. -/
def behindNodes (lookbehind : Str) : List NodeType :=
  if lookbehind.isEmpty then [] else [.Text (escapeText lookbehind)]

/-- Which node a paired delimiter makes, `/repo/src/parser/state_machine/inline.rs` l.103-114. -/
inductive Paired where
  | strong | emph | literal

/-- `/repo/src/parser/state_machine/inline.rs` l.103-114. -/
def Paired.node : Paired → Str → NodeType
  | .strong, t => .StrongEmphasis t
  | .emph, t => .Emphasis t
  | .literal, t => .Literal t

/-- `paired_delimiter`, `/repo/src/parser/state_machine/inline.rs` l.40-118. -/
def pairedDelimiter (k : Paired) (m : Match) (d : Option DocTree) : Run InlineOut := do
  let lookbehind := m.getD .lookbehind
  let start ← m.need .markupStart
  let content ← m.need .content
  let stop ← m.need .markupEnd
  let n := lookbehind.length + start.length + content.length + stop.length
  if quotationMatches lookbehind content then
    pure ([.Text (escapeText (m.whole.take n))], n, d)
  else
    pure (behindNodes lookbehind ++ [k.node (escapeText content)], n, d)

/-- `inline_target`, `/repo/src/parser/state_machine/inline.rs` l.122-171. -/
def inlineTarget (m : Match) (d : Option DocTree) : Run InlineOut := do
  let lookbehind := m.getD .lookbehind
  let start ← m.need .markupStart
  let content ← m.need .content
  let stop ← m.need .markupEnd
  pure (behindNodes lookbehind, lookbehind.length + (start.length + content.length + stop.length),
    d.map fun d => d.pushInternalTarget (normalizeRefname content))

/-- `whitespace`, `/repo/src/parser/state_machine/inline.rs` l.174-186. -/
def inlineWhitespace (m : Match) (d : Option DocTree) : Run InlineOut :=
  .ok ([.WhiteSpace m.whole], m.whole.length, d)

/-- The final `match role` of `interpreted_text`, `/repo/src/parser/state_machine/inline.rs` l.331-453. -/
def roleNode (role content : Str) : Run NodeType :=
  if role = str! "emphasis" then .ok (.Emphasis content)
  else if role = str! "literal" then .ok (.Literal content)
  else if role = str! "code" then .ok (.Literal content)
  else if role = str! "math" then .ok (.Math (mathToLatex content) none none)
  else if role = str! "pep-reference" ∨ role = str! "PEP" then
    if content.length > 4 then .error (.underflow "inline.rs interpreted_text 4 - content_len")
    else .ok (.Reference (some (str! "PEP " ++ content))
      (.URI (str! "https://www.python.org/peps/pep-" ++ List.replicate (4 - content.length) '0' ++ content ++
        str! ".html")))
  else if role = str! "rfc-reference" ∨ role = str! "RFC" then
    .ok (.Reference (some (str! "RFC " ++ content))
      (.URI (str! "https://www.faqs.org/rfcs/rfc" ++ content ++ str! ".html")))
  else if role = str! "strong" then .ok (.StrongEmphasis content)
  else if role = str! "subscript" then .ok (.Subscript content)
  else if role = str! "superscript" then .ok (.Superscript content)
  else if role = str! "title-reference" then .ok (.TitleReference content (normalizeRefname content))
  else .ok (.InterpretedText role content)

/-- `interpreted_text`, `/repo/src/parser/state_machine/inline.rs` l.188-453. -/
def interpretedText (m : Match) (d : Option DocTree) : Run InlineOut := do
  let lookbehind := m.getD .lookbehind
  let frontMarker := m.getD .frontRoleMarker
  let frontRole := m.getD .frontRole
  let start ← m.need .markupStart
  let content ← m.need .content
  let stop ← m.need .markupEnd
  let backMarker := m.getD .backRoleMarker
  let backRole := m.getD .backRole
  let n := lookbehind.length + frontMarker.length + start.length + content.length + stop.length + backMarker.length
  if !frontMarker.isEmpty && !backMarker.isEmpty then
    pure ([.Literal (m.whole.take n)], n, d)
  else if !frontMarker.isEmpty && quotationMatches lookbehind frontRole then
    let q := 2 * lookbehind.length + 1
    pure ([.Text (m.whole.take q)], q, d)
  else if frontMarker.isEmpty && quotationMatches lookbehind content then
    let q := lookbehind.length + start.length
    pure ([.Text (m.whole.take q)], q, d)
  else if !lookbehind.isEmpty then
    pure ([.Text (escapeText lookbehind)], lookbehind.length, d)
  else if frontRole.isEmpty && backRole.isEmpty then
    pure ([.TitleReference content (normalizeRefname content)], n, d)
  else do
    let node ← roleNode (if !frontRole.isEmpty then frontRole else backRole) content
    pure ([node], n, d)

/-- The label of a reference, `/repo/src/parser/state_machine/inline.rs` l.485-504 (and l.577-600, l.825-849):
anonymous references ask the document for a label. -/
def refLabel (refType content : Str) (d : Option DocTree) : Run (Str × Option DocTree) :=
  if refType = str! "__" then
    match d with
    | some d => .ok (d.nextAnonReferenceLabel.1, some d.nextAnonReferenceLabel.2)
    | none => .ok (normalizeRefname content, none)
  else if refType = str! "_" then .ok (normalizeRefname content, d)
  else .error (.unreachable "inline.rs ref_type")

/-- `simple_ref`, `/repo/src/parser/state_machine/inline.rs` l.456-513. -/
def simpleRef (m : Match) (d : Option DocTree) : Run InlineOut := do
  let lookbehind := m.getD .lookbehind
  let content ← m.need .content
  let refType ← m.need .refType
  if !lookbehind.isEmpty then
    pure ([.Text (escapeText lookbehind)], lookbehind.length, d)
  else do
    let (label, d) ← refLabel refType content d
    pure ([.Reference none (.Internal label)], lookbehind.length + content.length + refType.length, d)

/-- The reference of a phrase reference, `/repo/src/parser/state_machine/inline.rs` l.577-600. -/
def phraseReference (refType content uri : Str) (d : Option DocTree) : Run (Reference × Option DocTree) := do
  if refType = str! "_" ∧ uri.isEmpty = false then pure (.URI (normalizeRefname uri), d)
  else do
    let (label, d) ← refLabel refType content d
    pure (.Internal label, d)

/-- `phrase_ref`, `/repo/src/parser/state_machine/inline.rs` l.516-614. -/
def phraseRef (m : Match) (d : Option DocTree) : Run InlineOut := do
  let lookbehind := m.getD .lookbehind
  let start ← m.need .markupStart
  let content ← m.need .content
  let uri := m.getD .embeddedUri
  let refType ← m.need .refType
  let stop ← m.need .markupEnd
  if quotationMatches lookbehind content then
    let q := lookbehind.length + start.length + content.length
    pure ([.Text (m.whole.take q)], q, d)
  else if !lookbehind.isEmpty then
    pure ([.Text (escapeText lookbehind)], lookbehind.length, d)
  else do
    let (ref, d) ← phraseReference refType content uri d
    let n := if uri.isEmpty then lookbehind.length + start.length + content.length + stop.length + refType.length
      else m.whole.length
    pure ([.Reference (some content) ref], n, d)

/-- The node of a footnote reference, `/repo/src/parser/state_machine/inline.rs` l.673-714. -/
def footnoteRefNode (number autoNumber autoLabel symbol : Str) : Run NodeType :=
  if !number.isEmpty then .ok (.FootnoteReference number number .Manual)
  else if !autoNumber.isEmpty then .ok (.FootnoteReference autoNumber autoNumber .AutoNumbered)
  else if !autoLabel.isEmpty then .ok (.FootnoteReference autoLabel autoLabel .SimpleRefName)
  else if !symbol.isEmpty then .ok (.FootnoteReference symbol symbol .AutoSymbol)
  else .error (.unreachable "inline.rs footnote_ref")

/-- `footnote_ref`, `/repo/src/parser/state_machine/inline.rs` l.617-714. -/
def footnoteRef (m : Match) (d : Option DocTree) : Run InlineOut := do
  let lookbehind := m.getD .lookbehind
  let content ← m.need .content
  let start ← m.need .markupStart
  let refType ← m.need .refType
  let stop ← m.need .markupEnd
  let node ← footnoteRefNode (m.getD .number) (m.getD .autoNumber) (m.getD .autoNumberLabel) (m.getD .symbol)
  pure (behindNodes lookbehind ++ [node],
    lookbehind.length + start.length + (content.length + stop.length + refType.length), d)

/-- `citation_ref`, `/repo/src/parser/state_machine/inline.rs` l.717-770. -/
def citationRef (m : Match) (d : Option DocTree) : Run InlineOut := do
  let lookbehind := m.getD .lookbehind
  let start ← m.need .markupStart
  let content ← m.need .content
  let stop ← m.need .markupEnd
  let node : NodeType := .CitationReference (trim content) (trim content)
  let n := lookbehind.length + (start.length + content.length + stop.length)
  if lookbehind.isEmpty then pure ([node], n, d)
  else if quotationMatches lookbehind content then
    let q := lookbehind.length + start.length + 1
    pure ([.Text (m.whole.take q)], q, d)
  else pure ([.Text lookbehind, node], n, d)

/-- The target label of a substitution reference, `/repo/src/parser/state_machine/inline.rs` l.825-849. -/
def substitutionTarget (refType content : Str) (d : Option DocTree) : Run (Option Str × Option DocTree) := do
  if refType.isEmpty then pure (none, d)
  else do
    let (label, d) ← refLabel refType content d
    pure (some label, d)

/-- `substitution_ref`, `/repo/src/parser/state_machine/inline.rs` l.774-862. -/
def substitutionRef (m : Match) (d : Option DocTree) : Run InlineOut := do
  let lookbehind := m.getD .lookbehind
  let start ← m.need .markupStart
  let content ← m.need .content
  let refType := m.getD .refType
  let stop ← m.need .markupEnd
  if quotationMatches lookbehind content then
    let q := lookbehind.length + start.length + 1
    pure ([.Text (m.whole.take q)], q, d)
  else if !lookbehind.isEmpty then
    pure ([.Text (escapeText lookbehind)], lookbehind.length, d)
  else do
    let (target, d) ← substitutionTarget refType content d
    pure ([.SubstitutionReference (normalizeRefname content) target],
      lookbehind.length + start.length + content.length + stop.length + refType.length, d)

/-- `uri`, `/repo/src/parser/state_machine/inline.rs` l.867-989. -/
def inlineUri (m : Match) (d : Option DocTree) : Run InlineOut := do
  let lookbehind := m.getD .lookbehind
  let content ← m.need .content
  let scheme := m.getD .scheme
  let authority := m.getD .authority
  let path := m.getD .path
  let email := m.getD .email
  if !lookbehind.isEmpty then
    pure ([.Text (escapeText lookbehind)], lookbehind.length, d)
  else if scheme.isEmpty then
    if email.isEmpty then pure ([.Text email], email.length, d)
    else pure ([.Reference none (.EMail content)], content.length, d)
  else if !authority.isEmpty && !path.isEmpty && !(path.head? == some '/') then
    pure ([.Text content], content.length, d)
  else pure ([.Reference none (.URI content)], content.length, d)

/-- `text`, `/repo/src/parser/state_machine/inline.rs` l.994-1013. -/
def inlineText (m : Match) (d : Option DocTree) : Run InlineOut :=
  .ok ([.Text (escapeText m.whole)], m.whole.length, d)

/-- `INLINE_TRANSITIONS`, `/repo/src/parser/state_machine/transitions.rs` l.376-465. -/
def inlineTransitions : List (Re × (Match → Option DocTree → Run InlineOut)) :=
  [(reInlineWhitespace, inlineWhitespace), (reStrongEmph, pairedDelimiter .strong), (reEmph, pairedDelimiter .emph),
   (reLiteral, pairedDelimiter .literal), (reInlineTarget, inlineTarget), (rePhraseRef, phraseRef),
   (reInterpretedText, interpretedText), (reFootnoteRef, footnoteRef), (reCitationRef, citationRef),
   (reSimpleRef, simpleRef), (reSubstitutionRef, substitutionRef), (reUri, inlineUri), (reInlineText, inlineText)]

/-- The loop of `match_inline_str`, `/repo/src/parser/mod.rs` l.423-442. -/
def firstInline (d : Option DocTree) (s : Str) :
    List (Re × (Match → Option DocTree → Run InlineOut)) → Run (Option InlineOut)
  | [] => .ok none
  | (r, f) :: ts =>
    match r.captures s with
    | some m => do pure (some (← f m d))
    | none => firstInline d s ts

/-- `match_inline_str`, `/repo/src/parser/mod.rs` l.423-442. -/
def matchInlineStr (d : Option DocTree) (s : Str) : Run (Option InlineOut) :=
  if s.isEmpty then .ok none else firstInline d s inlineTransitions

/-- Number of line feeds: the `increment_by(1)` calls of `/repo/src/parser/mod.rs` l.395-401. -/
def countNewlines (s : Str) : Nat := s.count '\n'

/-- The loop of `inline_parse`, `/repo/src/parser/mod.rs` l.386-407.  `fuel` bounds the number of rounds; theorem
`C32_terminates` shows that the length of the text is always enough. -/
def inlineLoop : Nat → Option DocTree → LineCursor → Str → Run (List NodeType × Option DocTree × LineCursor)
  | 0, d, c, s => if s.isEmpty then .ok ([], d, c) else .error (.explicit "inline_parse does not terminate")
  | fuel + 1, d, c, s => do
    match ← matchInlineStr d s with
    | none => pure ([], d, c)
    | some (nodes, offset, d') => do
      let (more, d'', c') ← inlineLoop fuel d' (c.incrementBy (countNewlines (s.take offset))) (s.drop offset)
      pure (nodes ++ more, d'', c')

/-- `inline_parse`, `/repo/src/parser/mod.rs` l.375-417.  `NoNodes` is the empty list. -/
def inlineParse (d : Option DocTree) (c : LineCursor) (s : Str) : Run (List NodeType × Option DocTree × LineCursor) :=
  inlineLoop s.length d c s

end Rustla
