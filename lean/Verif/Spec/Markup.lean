import Verif.Spec.Inline
import Verif.Model.Common
/-!
# Specification of texts with inline markup

A text is given as a list of pieces; `Piece.source` is how a piece is written, `Piece.node` what it stands for and
`Piece.latex` what is written for it.
-/
namespace Rustla.Spec

/-- Roles of interpreted text. -/
inductive Role where
  | emphasis | strong | literal | code | math | subscript | superscript | title
  /-- A reference to a Python enhancement proposal, with the short or the long name of the role. -/
  | pep (short : Bool)
  /-- A reference to a request for comments, with the short or the long name of the role. -/
  | rfc (short : Bool)
  /-- A role that is not known. -/
  | other (name : Str)
  deriving DecidableEq

/-- The name of a role. -/
def Role.name : Role → Str
  | .emphasis => str! "emphasis"
  | .strong => str! "strong"
  | .literal => str! "literal"
  | .code => str! "code"
  | .math => str! "math"
  | .subscript => str! "subscript"
  | .superscript => str! "superscript"
  | .title => str! "title-reference"
  | .pep short => if short then str! "PEP" else str! "pep-reference"
  | .rfc short => if short then str! "RFC" else str! "rfc-reference"
  | .other name => name

/-- The names of the known roles. -/
def knownRoles : List Str :=
  [str! "emphasis", str! "strong", str! "literal", str! "code", str! "math", str! "subscript", str! "superscript",
    str! "title-reference", str! "PEP", str! "pep-reference", str! "RFC", str! "rfc-reference"]

/-- The address of a Python enhancement proposal; its number is filled up to four digits. -/
def pepAddress (c : Str) : Str :=
  str! "https://www.python.org/peps/pep-" ++ List.replicate (4 - c.length) '0' ++ c ++ str! ".html"

/-- The address of a request for comments. -/
def rfcAddress (c : Str) : Str := str! "https://www.faqs.org/rfcs/rfc" ++ c ++ str! ".html"

/-- What a text with a role stands for. -/
def Role.node : Role → Str → NodeType
  | .emphasis, c => .Emphasis c
  | .strong, c => .StrongEmphasis c
  | .literal, c => .Literal c
  | .code, c => .Literal c
  | .math, c => .Math (mathToLatex c) none none
  | .subscript, c => .Subscript c
  | .superscript, c => .Superscript c
  | .title, c => .TitleReference c (normalizeRefname c)
  | .pep _, c => .Reference (some (str! "PEP " ++ c)) (.URI (pepAddress c))
  | .rfc _, c => .Reference (some (str! "RFC " ++ c)) (.URI (rfcAddress c))
  | .other name, c => .InterpretedText name c

/-- A name made of letters and digits, with single punctuation characters between them. -/
structure Name where
  first : Str
  rest : List (Char × Str)
  deriving DecidableEq

/-- The text of a name. -/
def Name.text (n : Name) : Str := n.first ++ (n.rest.map fun p => p.1 :: p.2).flatten

/-- A name with the given punctuation. -/
def Name.Ok (seps : List Char) (n : Name) : Prop :=
  (n.first ≠ [] ∧ ∀ c ∈ n.first, c.isAlphanum = true) ∧
    ∀ p ∈ n.rest, p.1 ∈ seps ∧ p.2 ≠ [] ∧ ∀ c ∈ p.2, c.isAlphanum = true

/-- The text of a path: its segments, each behind a slash, and possibly a slash at the end. -/
def pathText (segments : List Str) (slash : Bool) : Str := (segments.map ('/' :: ·)).flatten ++ (if slash then ['/'] else [])

/-- An address on the web. -/
structure Url where
  scheme : Str
  host : Name
  segments : List Str
  /-- The address ends with a slash. -/
  slash : Bool
  deriving DecidableEq

/-- The text of an address. -/
def Url.text (u : Url) : Str := u.scheme ++ ':' :: '/' :: '/' :: (u.host.text ++ pathText u.segments u.slash)

/-- Addresses with a known scheme, a host and a path that does not end with a full stop. -/
def Url.Ok (u : Url) : Prop :=
  u.scheme ∈ [str! "http", str! "https", str! "ftp"] ∧ u.host.Ok ['-', '.', '+'] ∧
    (∀ s ∈ u.segments, s ≠ [] ∧ ∀ c ∈ s, c.isAlphanum = true ∨ c ∈ ['~', '_', '.']) ∧
    ∃ c, (pathText u.segments u.slash).getLast? = some c ∧ c ≠ '.'

/-- An e-mail address: the parts of the name of the mail box, which have dots between them, and the two parts of the name of the host. -/
structure Mail where
  first : Name
  more : List Name
  site : Name
  domain : List (Char × Str)
  deriving DecidableEq

/-- The name of the mail box. -/
def Mail.box (m : Mail) : Str := m.first.text ++ (m.more.map fun n => '.' :: n.text).flatten

/-- The name of the host. -/
def Mail.host (m : Mail) : Str := m.site.text ++ (m.domain.map fun p => p.1 :: p.2).flatten

/-- The text of an e-mail address. -/
def Mail.text (m : Mail) : Str := m.box ++ '@' :: m.host

/-- E-mail addresses: the parts of the mail box consist of letters, digits, hyphens and underscores, those of the host of letters and digits with
dots and hyphens between them; the mail box is not the first half of the scheme of an address. -/
structure Mail.Ok (m : Mail) : Prop where
  first : m.first.Ok ['-', '_']
  more : ∀ n ∈ m.more, n.Ok ['-', '_']
  site : m.site.Ok ['-']
  domain : ∀ p ∈ m.domain, p.1 ∈ ['.', '-'] ∧ p.2 ≠ [] ∧ ∀ c ∈ p.2, c.isAlphanum = true
  dot : ∀ p ∈ m.domain.head?.toList, p.1 = '.'
  box : m.box ∉ [str! "iris", str! "soap", str! "xmlrpc", str! "z39"]

/-- A piece of a text. -/
inductive Piece where
  /-- White space. -/
  | space (w : Str)
  /-- Other characters without markup. -/
  | word (w : Str)
  /-- A word followed by a colon. -/
  | lead (w : Str)
  /-- `*emphasis*` -/
  | emph (c : Str)
  /-- `**strong emphasis**` -/
  | strong (c : Str)
  /-- A text between double back quotes. -/
  | literal (c : Str)
  /-- A text between back quotes behind the name of a role. -/
  | role (r : Role) (c : Str)
  /-- A reference: `name_` -/
  | ref (n : Name)
  /-- A reference by several words, between back quotes, followed by an underscore. -/
  | phrase (c : Str)
  /-- A reference to an address, which is given between angle openBrackets.  The next character of the text belongs to it. -/
  | link (c gap u next : Str)
  /-- A reference to a citation: `[name]_` -/
  | cite (n : Name)
  /-- A reference to a footnote: `[12]_` -/
  | foot (n : Str)
  /-- An address. -/
  | url (u : Url)
  /-- An e-mail address. -/
  | mail (m : Mail)
  /-- A bracket, quotation mark, hyphen or slash directly before markup. -/
  | opener (c : Char)

/-- How a piece is written. -/
def Piece.source : Piece → Str
  | .space w => w
  | .word w => w
  | .lead w => w ++ [':']
  | .emph c => '*' :: (c ++ ['*'])
  | .strong c => '*' :: '*' :: (c ++ ['*', '*'])
  | .literal c => '`' :: '`' :: (c ++ ['`', '`'])
  | .role r c => ':' :: (r.name ++ ':' :: '`' :: (c ++ ['`']))
  | .ref n => n.text ++ ['_']
  | .phrase c => '`' :: (c ++ ['`', '_'])
  | .link c gap u next => '`' :: (c ++ (gap ++ '<' :: (u ++ '>' :: '`' :: '_' :: next)))
  | .cite n => '[' :: (n.text ++ [']', '_'])
  | .foot n => '[' :: (n ++ [']', '_'])
  | .url u => u.text
  | .mail m => m.text
  | .opener c => [c]

/-- What a piece stands for.  The character that follows a reference to an address is lost, and the address is
normalized like a name. -/
def Piece.node : Piece → NodeType
  | .space w => .WhiteSpace w
  | .word w => .Text (escapeText w)
  | .lead w => .Text (escapeText (w ++ [':']))
  | .emph c => .Emphasis (escapeText c)
  | .strong c => .StrongEmphasis (escapeText c)
  | .literal c => .Literal (escapeText c)
  | .role r c => r.node c
  | .ref n => .Reference none (.Internal (normalizeRefname n.text))
  | .phrase c => .Reference (some c) (.Internal (normalizeRefname c))
  | .link c _ u _ => .Reference (some c) (.URI (normalizeRefname u))
  | .cite n => .CitationReference n.text n.text
  | .foot n => .FootnoteReference n n .Manual
  | .url u => .Reference none (.URI u.text)
  | .mail m => .Reference none (.EMail m.text)
  | .opener c => .Text (escapeText [c])

/-- The labels of the node that a piece stands for: a reference to a footnote is labelled with its number. -/
def Piece.labels : Piece → List Str
  | .foot n => [normalizeRefname n]
  | _ => []

/-- The text between two marks: it does not contain the character of the mark, does not start or end with white space and
does not end with a backslash. -/
def Marked (mark : Char) (c : Str) : Prop :=
  mark ∉ c ∧ (∃ x, c.head? = some x ∧ isWs x = false) ∧ ∃ y, c.getLast? = some y ∧ isWs y = false ∧ y ≠ '\\'

/-- Every `mark` is followed by a letter or digit. -/
def Knit (mark : Char) : Str → Prop
  | [] => True
  | c :: s => (c = mark → ∃ d, s.head? = some d ∧ d.isAlphanum = true) ∧ Knit mark s

/-- The text of emphasis and literals: it does not start with the character of the mark, and where it contains the character a letter or digit follows; it
does not start or end with white space and does not end with a backslash. -/
def Between (mark : Char) (c : Str) : Prop :=
  Knit mark c ∧ (∃ x, c.head? = some x ∧ isWs x = false ∧ x ≠ mark) ∧ ∃ y, c.getLast? = some y ∧ isWs y = false ∧ y ≠ '\\'

/-- Characters that start markup. -/
def opening : List Char := ['*', '`', '_', '[', '|', ':']

/-- Every underscore is followed by a letter or digit. -/
def Joined : Str → Prop
  | [] => True
  | c :: s => (c = '_' → ∃ d, s.head? = some d ∧ d.isAlphanum = true) ∧ Joined s

/-- Markup does not start at the second character, unless the first is a letter or digit. -/
def SecondOk : Str → Prop
  | c :: d :: _ => d ∈ opening → c.isAlphanum = true
  | _ => True

/-- Schemes of addresses. -/
def schemes : List Str :=
  [str! "about", str! "acap", str! "addbook", str! "afp", str! "afs", str! "aim", str! "callto", str! "castanet", str! "chttp", str! "cid",
   str! "crid", str! "data", str! "dav", str! "dict", str! "dns", str! "eid", str! "fax", str! "feed", str! "file", str! "finger", str! "freenet",
   str! "ftp", str! "go", str! "gopher", str! "gsm-sms", str! "h323", str! "h324", str! "hdl", str! "hnews", str! "http", str! "https", str! "hydra",
   str! "iioploc", str! "ilu", str! "im", str! "imap", str! "info", str! "ior", str! "ipp", str! "irc", str! "iseek", str! "jar", str! "javascript",
   str! "jdbc", str! "ldap", str! "lifn", str! "livescript", str! "lrq", str! "mailbox", str! "mailserver", str! "mailto", str! "md5", str! "mid",
   str! "mocha", str! "modem", str! "mtqp", str! "mupdate", str! "news", str! "nfs", str! "nntp", str! "opaquelocktoken", str! "phone", str! "pop",
   str! "pop3", str! "pres", str! "printer", str! "prospero", str! "rdar", str! "res", str! "rtsp", str! "rvp", str! "rwhois", str! "rx", str! "sdp",
   str! "service", str! "shttp", str! "sip", str! "sips", str! "smb", str! "snews", str! "snmp", str! "ssh", str! "t120", str! "tag", str! "tcp",
   str! "tel", str! "telephone", str! "telnet", str! "tftp", str! "tip", str! "tn3270", str! "tv", str! "urn", str! "uuid", str! "vemmi",
   str! "videotex", str! "view-source", str! "wais", str! "whodp", str! "x-man-page"]

/-- Schemes with any character in the middle, where a dot is meant. -/
def dottedSchemes : List (Str × Str) :=
  [(str! "iris", str! "beep"), (str! "soap", str! "beep"), (str! "soap", str! "beeps"), (str! "xmlrpc", str! "beep"), (str! "xmlrpc", str! "beeps"),
   (str! "z39", str! "50r"), (str! "z39", str! "50s")]

/-- The text is a scheme of addresses; the last letter of `whois` may be repeated. -/
def isScheme (u : Str) : Bool :=
  schemes.contains u || dottedSchemes.any (fun p => u.take p.1.length == p.1 && u.drop (p.1.length + 1) == p.2) ||
    (u.take 5 == str! "whois" && (u.drop 5).all (· == 's'))

/-- A colon in the text is not the last character and does not end a scheme of an address that starts with the first or the second character, or
with the word before this one. -/
def ColonsOk (w : Str) : Prop := ∀ k < w.length, w[k]? = some ':' →
  k + 1 < w.length ∧ isScheme (w.take k) = false ∧ isScheme (w.take k).tail = false ∧ ∀ p ∈ dottedSchemes, w.take k ≠ p.2

/-- Text that contains no markup. -/
structure Quiet (w : Str) : Prop where
  first : ∀ c ∈ w.head?.toList, c ∉ opening
  second : SecondOk w
  joined : Joined w
  colons : ColonsOk w
  noAt : '@' ∉ w

/-- A text with the role. -/
def Role.Ok (c : Str) : Role → Prop
  | .pep _ => c.length ≤ 4
  | .other name => name ∉ knownRoles ∧ ':' ∉ name ∧ (∀ x ∈ name, isWs x = false) ∧
      ∃ x, name.head? = some x ∧ x ∉ ['`', '*', '_']
  | _ => True

/-- Punctuation that may follow markup directly. -/
def closing : List Char := ['-', '.', ',', ';', '!', '?', '/', '\'', '"', ')', ']', '}', '>']

/-- Characters that may stand directly before markup. -/
def openBrackets : List Char := ['(', '"', '\'', '-', '/', '<']

/-- The other character of a pair of openBrackets or quotation marks. -/
def counterpart (c : Char) : Char := if c = '(' then ')' else if c = '<' then '>' else c

/-- The character that follows the mark at the start of a piece. -/
def Piece.inner : Piece → Option Char
  | .emph c => c.head?
  | .strong c => c.head?
  | .literal c => c.head?
  | .role r _ => r.name.head?
  | .phrase c => c.head?
  | .link c _ _ _ => c.head?
  | _ => none

/-- Pieces that may follow an opening character: markup that the character does not quote. -/
def Piece.opened (c : Char) : Piece → Prop
  | .space _ => False
  | .word _ => False
  | .lead _ => False
  | .opener _ => False
  | p => ∀ x, p.inner = some x → x ≠ counterpart c

/-- Well-formed pieces. -/
def Piece.Ok : Piece → Prop
  | .space w => w ≠ [] ∧ ∀ c ∈ w, isWs c = true
  | .word w => w ≠ [] ∧ (∀ c ∈ w, isWs c = false) ∧ Quiet w
  | .lead w => (∀ c ∈ w, isWs c = false) ∧ Quiet w
  | .emph c => Between '*' c
  | .strong c => Between '*' c
  | .literal c => Between '`' c
  | .role r c => Marked '`' c ∧ r.Ok c
  | .ref n => n.Ok ['-', '.', '+', '_']
  | .phrase c => Marked '`' c ∧ '<' ∉ c
  | .link c gap u next => (Marked '`' c ∧ '<' ∉ c) ∧ (gap ≠ [] ∧ ∀ x ∈ gap, isWs x = true) ∧ (Marked '>' u ∧ '`' ∉ u) ∧
      next.length ≤ 1 ∧ ∀ x ∈ next, isWs x = true ∨ x ∈ closing
  | .cite n => n.Ok ['-', '.', '_'] ∧ (n.rest = [] → ∃ c ∈ n.first, c.isDigit = false)
  | .foot n => n ≠ [] ∧ ∀ c ∈ n, c.isDigit = true
  | .url u => u.Ok
  | .mail m => m.Ok
  | .opener c => c ∈ openBrackets

/-- What may follow a piece: markup starts the text or follows white space or an opening character, and is followed by white space, punctuation, a
colon before white space or the end of the text.  The characters that might belong to an address do not follow it, except for
a full stop at the end of a sentence. -/
def Piece.followed : Piece → Option Piece → Prop
  | .opener c, some p => p.opened c
  | .opener _, none => False
  | _, none => True
  | .space _, some (.space _) => False
  | .space _, some _ => True
  | .word _, some (.space _) => True
  | .word _, some _ => False
  | .lead _, some (.space _) => True
  | .lead _, some _ => False
  | .link _ _ _ next, some _ => next ≠ []
  | .url _, some (.word w) => w = ['.'] ∨ ∃ c, w.head? = some c ∧ c ∈ closing ∧ c ∉ ['-', '.', '/', '?']
  | .url _, some (.lead w) => ∀ c, w.head? = some c → c ∈ closing ∧ c ∉ ['-', '.', '/', '?']
  | .mail _, some (.word w) => w = ['.'] ∨ ∃ c, w.head? = some c ∧ c ∈ closing ∧ c ∉ ['-', '.', '/', '?']
  | .mail _, some (.lead w) => ∀ c, w.head? = some c → c ∈ closing ∧ c ∉ ['-', '.', '/', '?']
  | _, some (.space _) => True
  | _, some (.word w) => ∃ c, w.head? = some c ∧ c ∈ closing
  | _, some (.lead w) => ∀ c, w.head? = some c → c ∈ closing
  | _, some _ => False

/-- Well-formed texts. -/
def Pieces : List Piece → Prop
  | [] => True
  | p :: ps => p.Ok ∧ p.followed ps.head? ∧ Pieces ps

/-- Statements about the element of an option are decidable. -/
instance decidableSome (o : Option Char) (p : Char → Prop) [DecidablePred p] : Decidable (∃ x, o = some x ∧ p x) :=
  match o with
  | none => isFalse (by simp)
  | some a => decidable_of_iff (p a) (by simp)

/-- Statements about all elements of an option are decidable. -/
instance decidableEvery (o : Option Char) (p : Char → Prop) [DecidablePred p] : Decidable (∀ x, o = some x → p x) :=
  match o with
  | none => isTrue (by simp)
  | some a => decidable_of_iff (p a) (by simp)

instance (m : Char) (c : Str) : Decidable (Marked m c) := by unfold Marked; infer_instance
instance decidableKnit (m : Char) : (s : Str) → Decidable (Knit m s)
  | [] => isTrue trivial
  | c :: s => by
    have := decidableKnit m s
    unfold Knit
    infer_instance
instance (m : Char) (c : Str) : Decidable (Between m c) := by unfold Between; infer_instance
instance decidableJoined : (s : Str) → Decidable (Joined s)
  | [] => isTrue trivial
  | c :: s => by
    have := decidableJoined s
    unfold Joined
    infer_instance
instance (s : Str) : Decidable (SecondOk s) := by unfold SecondOk; split <;> infer_instance
instance (w : Str) : Decidable (ColonsOk w) := by unfold ColonsOk; infer_instance
instance (w : Str) : Decidable (Quiet w) :=
  decidable_of_iff ((∀ c ∈ w.head?.toList, c ∉ opening) ∧ SecondOk w ∧ Joined w ∧ ColonsOk w ∧ '@' ∉ w)
    ⟨fun ⟨a, b, c, d, e⟩ => ⟨a, b, c, d, e⟩, fun ⟨a, b, c, d, e⟩ => ⟨a, b, c, d, e⟩⟩
instance (c : Str) (r : Role) : Decidable (r.Ok c) := by cases r <;> unfold Role.Ok <;> infer_instance
instance (seps : List Char) (n : Name) : Decidable (n.Ok seps) := by unfold Name.Ok; infer_instance
instance (u : Url) : Decidable u.Ok := by unfold Url.Ok; infer_instance
instance (m : Mail) : Decidable m.Ok :=
  decidable_of_iff (m.first.Ok ['-', '_'] ∧ (∀ n ∈ m.more, n.Ok ['-', '_']) ∧ m.site.Ok ['-'] ∧
      (∀ p ∈ m.domain, p.1 ∈ ['.', '-'] ∧ p.2 ≠ [] ∧ ∀ c ∈ p.2, c.isAlphanum = true) ∧ (∀ p ∈ m.domain.head?.toList, p.1 = '.') ∧
      m.box ∉ [str! "iris", str! "soap", str! "xmlrpc", str! "z39"])
    ⟨fun ⟨a, b, c, d, e, f⟩ => ⟨a, b, c, d, e, f⟩, fun ⟨a, b, c, d, e, f⟩ => ⟨a, b, c, d, e, f⟩⟩
instance (p : Piece) : Decidable p.Ok := by cases p <;> unfold Piece.Ok <;> infer_instance
instance (c : Char) (p : Piece) : Decidable (p.opened c) := by cases p <;> unfold Piece.opened <;> infer_instance
instance (p : Piece) (q : Option Piece) : Decidable (p.followed q) := by
  cases q with
  | none => cases p <;> first | exact isTrue trivial | exact isFalse id
  | some q => cases p <;> cases q <;> unfold Piece.followed <;> infer_instance
instance decidablePieces : (ps : List Piece) → Decidable (Pieces ps)
  | [] => isTrue trivial
  | p :: ps => by
    have := decidablePieces ps
    unfold Pieces
    infer_instance

/-- The text made of pieces. -/
def piecesSource (ps : List Piece) : Str := (ps.map Piece.source).flatten

/-- What a text with a role is in the output.  A formula is converted twice: when it is read and when it is written. -/
def Role.latex : Role → Str → Str
  | .emphasis, c => str! "\\textit{" ++ c ++ str! "}"
  | .strong, c => str! "\\textbf{" ++ c ++ str! "}"
  | .literal, c => str! "\\texttt{" ++ c ++ str! "}"
  | .code, c => str! "\\texttt{" ++ c ++ str! "}"
  | .math, c => str! "\\(" ++ mathToLatex (mathToLatex c) ++ str! "\\)"
  | .subscript, c => str! "\\textsubscript{" ++ c ++ str! "}"
  | .superscript, c => str! "\\textsuperscript{" ++ c ++ str! "}"
  | .title, c => str! "\\hyperref[" ++ normalizeRefname c ++ str! "]{" ++ c ++ str! "}"
  | .pep _, c => str! "\\href{" ++ pepAddress c ++ str! "}{" ++ (str! "PEP " ++ c) ++ str! "}"
  | .rfc _, c => str! "\\href{" ++ rfcAddress c ++ str! "}{" ++ (str! "RFC " ++ c) ++ str! "}"
  | .other name, c => str! "\\" ++ name ++ str! "{" ++ c ++ str! "}"

/-- What a piece is in the output. -/
def Piece.latex : Piece → Str
  | .space w => w
  | .word w => escapeText w
  | .lead w => escapeText (w ++ [':'])
  | .emph c => str! "\\textit{" ++ escapeText c ++ str! "}"
  | .strong c => str! "\\textbf{" ++ escapeText c ++ str! "}"
  | .literal c => str! "\\texttt{" ++ escapeText c ++ str! "}"
  | .role r c => r.latex c
  | .ref n => str! "\\ref{" ++ normalizeRefname n.text ++ str! "}"
  | .phrase c => str! "\\hyperref[" ++ normalizeRefname c ++ str! "]{" ++ c ++ str! "}"
  | .link c _ u _ => str! "\\href{" ++ normalizeRefname u ++ str! "}{" ++ c ++ str! "}"
  | .cite n => str! "\\cite{" ++ n.text ++ str! "}"
  | .foot _ => str! "\\footnotemark"
  | .url u => str! "\\url{" ++ u.text ++ str! "}"
  | .mail m => str! "\\href{" ++ m.text ++ str! "}{" ++ m.text ++ str! "}"
  | .opener c => escapeText [c]

end Rustla.Spec
