import Verif.Model.Regex
/-! # Regular expressions of the parser

Generated from the pattern strings of `/repo/src/parser/regex_patterns.rs` (and the few patterns defined
next to their use) by a small translator: every pattern starts with `^`, so a match always starts at the
first character. -/
namespace Rustla

/-- Character class of `/repo/src/parser/regex_patterns.rs`. -/
def clsBullet (c : Char) : Bool :=
  (c == '+' || c == '-' || c == '*' || c == '\u2022' || c == '\u2023' || c == '\u2043')

/-- Character class of `/repo/src/parser/regex_patterns.rs`. -/
def clsDigit (c : Char) : Bool :=
  ('0' ≤ c && c ≤ '9')

/-- Character class of `/repo/src/parser/regex_patterns.rs`. -/
def clsLowerRoman (c : Char) : Bool :=
  (c == 'i' || c == 'v' || c == 'x' || c == 'l' || c == 'c' || c == 'd' || c == 'm')

/-- Character class of `/repo/src/parser/regex_patterns.rs`. -/
def clsUpperRoman (c : Char) : Bool :=
  (c == 'I' || c == 'V' || c == 'X' || c == 'L' || c == 'C' || c == 'D' || c == 'M')

/-- Character class of `/repo/src/parser/regex_patterns.rs`. -/
def clsLower (c : Char) : Bool :=
  ('a' ≤ c && c ≤ 'z')

/-- Character class of `/repo/src/parser/regex_patterns.rs`. -/
def clsUpper (c : Char) : Bool :=
  ('A' ≤ c && c ≤ 'Z')

/-- Character class of `/repo/src/parser/regex_patterns.rs`. -/
def clsNonWsNonBackslash (c : Char) : Bool :=
  ((!(isWs c)) && (!(c == '\\')))

/-- Character class of `/repo/src/parser/regex_patterns.rs`. -/
def clsNotNewline (c : Char) : Bool :=
  !(c == '\n')

/-- Character class of `/repo/src/parser/regex_patterns.rs`. -/
def clsAlpha (c : Char) : Bool :=
  (('a' ≤ c && c ≤ 'z') || ('A' ≤ c && c ≤ 'Z'))

/-- Character class of `/repo/src/parser/regex_patterns.rs`. -/
def clsAlnum (c : Char) : Bool :=
  (('a' ≤ c && c ≤ 'z') || ('A' ≤ c && c ≤ 'Z') || ('0' ≤ c && c ≤ '9'))

/-- Character class of `/repo/src/parser/regex_patterns.rs`. -/
def clsRefSep (c : Char) : Bool :=
  (c == '-' || c == '+' || c == '.' || c == '_' || c == ':')

/-- Character class of `/repo/src/parser/regex_patterns.rs`. -/
def clsAlnumSpace (c : Char) : Bool :=
  (('a' ≤ c && c ≤ 'z') || ('A' ≤ c && c ≤ 'Z') || ('0' ≤ c && c ≤ '9') || c == ' ')

/-- Character class of `/repo/src/parser/regex_patterns.rs`. -/
def clsLookbehind (c : Char) : Bool :=
  (((c == '-' || c == ':' || c == '/' || c == '\'' || c == '"' || c == '<' || c == '(' || c == '[' || c == '{'
    || isPs c || isPi c || isPf c || isPd c || isPo c || isWs c)) && (!((c == '\\' || c == '*'))))

/-- Character class of `/repo/src/parser/regex_patterns.rs`. -/
def clsAny (c : Char) : Bool :=
  (!(isWs c) || isWs c)

/-- Character class of `/repo/src/parser/regex_patterns.rs`. -/
def clsLookahead (c : Char) : Bool :=
  (((c == '-' || c == '.' || c == ',' || c == ':' || c == ';' || c == '!' || c == '?' || c == '\\' || c == '/'
    || c == '\'' || c == '"' || c == ')' || c == ']' || c == '}' || c == '>' || isPe c || isPi c || isPf c ||
    isPd c || isPo c)) && (!(c == '*')))

/-- Character class of `/repo/src/parser/regex_patterns.rs`. -/
def clsSimpleRefSep (c : Char) : Bool :=
  (c == '-' || c == '_' || c == '.' || c == ':' || c == '+')

/-- Character class of `/repo/src/parser/regex_patterns.rs`. -/
def clsCiteSep (c : Char) : Bool :=
  (c == '-' || c == '_' || c == '.')

/-- Character class of `/repo/src/parser/regex_patterns.rs`. -/
def clsUriLookbehind (c : Char) : Bool :=
  (c == '-' || c == ':' || c == '/' || c == '\'' || c == '"' || c == '<' || c == '(' || c == '[' || c == '{' ||
    isPs c || isPi c || isPf c || isPd c || isPo c)

/-- Character class of `/repo/src/parser/regex_patterns.rs`. -/
def clsAlnum2 (c : Char) : Bool :=
  (('A' ≤ c && c ≤ 'Z') || ('a' ≤ c && c ≤ 'z') || ('0' ≤ c && c ≤ '9'))

/-- Character class of `/repo/src/parser/regex_patterns.rs`. -/
def clsHostSep (c : Char) : Bool :=
  (c == '-' || c == '.' || c == '+')

/-- Character class of `/repo/src/parser/regex_patterns.rs`. -/
def clsPathChar (c : Char) : Bool :=
  (('a' ≤ c && c ≤ 'z') || ('A' ≤ c && c ≤ 'Z') || ('0' ≤ c && c ≤ '9') || c == '~' || c == '_' || c == '.')

/-- Character class of `/repo/src/parser/regex_patterns.rs`. -/
def clsPathChar2 (c : Char) : Bool :=
  (('A' ≤ c && c ≤ 'Z') || ('a' ≤ c && c ≤ 'z') || ('0' ≤ c && c ≤ '9') || c == '~' || c == '_' || c == '.')

/-- Character class of `/repo/src/parser/regex_patterns.rs`. -/
def clsUriSuffix (c : Char) : Bool :=
  (c == '_' || c == '~' || c == '*' || c == '/' || c == '=' || c == '+' || ('a' ≤ c && c ≤ 'z') || ('A' ≤ c && c
    ≤ 'Z') || ('0' ≤ c && c ≤ '9'))

/-- Character class of `/repo/src/parser/regex_patterns.rs`. -/
def clsQueryChar (c : Char) : Bool :=
  (c == '=' || c == '&' || ('a' ≤ c && c ≤ 'z') || ('A' ≤ c && c ≤ 'Z') || ('0' ≤ c && c ≤ '9'))

/-- Character class of `/repo/src/parser/regex_patterns.rs`. -/
def clsMailChar (c : Char) : Bool :=
  (c == '-' || c == '_' || ('a' ≤ c && c ≤ 'z') || ('A' ≤ c && c ≤ 'Z') || ('0' ≤ c && c ≤ '9'))

/-- Character class of `/repo/src/parser/regex_patterns.rs`. -/
def clsMailChar2 (c : Char) : Bool :=
  (c == '-' || c == '_' || c == '!' || c == '~' || c == '*' || c == '\'' || c == '{' || c == '|' || c == '}' ||
    c == '/' || c == '#' || c == '?' || c == '^' || c == '`' || c == '&' || c == '=' || c == '+' || c == '$'
    || c == '%' || ('a' ≤ c && c ≤ 'z') || ('A' ≤ c && c ≤ 'Z') || ('0' ≤ c && c ≤ '9'))

/-- Character class of `/repo/src/parser/regex_patterns.rs`. -/
def clsMailSep (c : Char) : Bool :=
  (c == '.' || c == '-')

/-- Character class of `/repo/src/parser/regex_patterns.rs`. -/
def clsUriLookahead (c : Char) : Bool :=
  (c == '-' || c == '.' || c == ',' || c == ':' || c == ';' || c == '!' || c == '?' || c == '\\' || c == '/' ||
    c == '\'' || c == '"' || c == ')' || c == ']' || c == '}' || c == '>' || isPe c || isPi c || isPf c ||
    isPd c || isPo c)

/-- `ATTRIBUTION_PATTERN`, `/repo/src/parser/regex_patterns.rs` l.54-54. -/
def reAttribution : Re :=
  (.seq (.cap .g1 (.star true (.cls isWs))) (.seq (.alt (Re.lit (str! "--")) (.alt (Re.lit (str! "---")) (.chr
    '\u2014'))) (.star true (.chr ' '))))

/-- `BLANK_LINE_PATTERN`, `/repo/src/parser/regex_patterns.rs` l.57-57. -/
def reBlankLine : Re :=
  (.seq (.star true (.cls isWs)) .eos)

/-- `BULLET_PATTERN`, `/repo/src/parser/regex_patterns.rs` l.60-60. -/
def reBullet : Re :=
  (.seq (.cap .g1 (.star true (.cls isWs))) (.seq (.cap .g2 (.cls clsBullet)) (.alt (Re.plus true (.chr ' '))
    .eos)))

/-- `ENUMERATOR_PATTERN`, `/repo/src/parser/regex_patterns.rs` l.63-153. -/
def reEnumerator : Re :=
  (.seq (.cap .indent (.star true (.cls isWs))) (.seq (.alt (.seq (.chr '(') (.seq (Re.alts [(.cap .arabicParens
    (Re.plus true (.cls clsDigit))), (.cap .lowerRomanParens (Re.plus true (.cls clsLowerRoman))), (.cap
    .upperRomanParens (Re.plus true (.cls clsUpperRoman))), (.cap .lowerAlphaParens (.cls clsLower)), (.cap
    .upperAlphaParens (.cls clsUpper)), (.cap .autoEnumeratorParens (.chr '#'))]) (.chr ')'))) (.alt (.seq
    (Re.alts [(.cap .arabicRparen (Re.plus true (.cls clsDigit))), (.cap .lowerRomanRparen (Re.plus true (.cls
    clsLowerRoman))), (.cap .upperRomanRparen (Re.plus true (.cls clsUpperRoman))), (.cap .lowerAlphaRparen
    (.cls clsLower)), (.cap .upperAlphaRparen (.cls clsUpper)), (.cap .autoEnumeratorRparen (.chr '#'))])
    (.chr ')')) (.seq (Re.alts [(.cap .arabicPeriod (Re.plus true (.cls clsDigit))), (.cap .lowerRomanPeriod
    (Re.plus true (.cls clsLowerRoman))), (.cap .upperRomanPeriod (Re.plus true (.cls clsUpperRoman))), (.cap
    .lowerAlphaPeriod (.cls clsLower)), (.cap .upperAlphaPeriod (.cls clsUpper)), (.cap .autoEnumeratorPeriod
    (.chr '#'))]) (.chr '.')))) (.cap .afterMarker (.alt (Re.plus true (.chr ' ')) .eos))))

/-- `FIELD_MARKER_PATTERN`, `/repo/src/parser/regex_patterns.rs` l.158-158. -/
def reFieldMarker : Re :=
  (.seq (.cap .g1 (.star true (.cls isWs))) (.seq (.chr ':') (.seq (.cap .g2 (.alt (.cls clsNonWsNonBackslash)
    (.seq (.cls nonWs) (.seq (.star false (.cls clsNotNewline)) (.cls clsNonWsNonBackslash))))) (.seq (.chr
    ':') (.alt (Re.plus true (.chr ' ')) .eos)))))

/-- `INDENTED_LITERAL_BLOCK_PATTERN`, `/repo/src/parser/regex_patterns.rs` l.161-161. -/
def reIndentedLiteralBlock : Re :=
  (.seq (.cap .g1 (Re.plus true (.cls isWs))) (.cls nonWs))

/-- `QUOTED_LITERAL_BLOCK_PATTERN`, `/repo/src/parser/regex_patterns.rs` l.164-165. -/
def reQuotedLiteralBlock : Re :=
  (.seq (.cap .g1 (.star true (.cls isWs))) (.cap .g2 (Re.alts [(.chr '!'), (.chr '"'), (.chr '#'), (.chr '$'),
    (.chr '%'), (.chr '&'), (.chr '\''), (.chr '('), (.chr ')'), (.chr '*'), (.chr '+'), (.chr ','), (.chr
    '-'), (.chr '.'), (.chr '/'), (.chr ':'), (.chr ';'), (.chr '<'), (.chr '='), (.chr '>'), (.chr '?'),
    (.chr '@'), (.chr '['), (.chr '\\'), (.chr ']'), (.chr '^'), (.chr '_'), (.chr '`'), (.chr '{'), (.chr
    '|'), (.chr '}'), (.chr '~')])))

/-- `FOOTNOTE_PATTERN`, `/repo/src/parser/regex_patterns.rs` l.181-193. -/
def reFootnote : Re :=
  (.seq (.cap .indent (.star true (.cls isWs))) (.seq (Re.lit (str! "..")) (.seq (Re.plus true (.chr ' ')) (.seq
    (.chr '[') (.seq (.alt (.cap .manual (Re.plus true (.cls isNd))) (.alt (.cap .autonumbered (.chr '#'))
    (.alt (.seq (.chr '#') (.cap .simplename (.seq (.cls clsAlpha) (.seq (Re.plus true (.cls clsAlnum)) (.star
    true (.seq (.cls clsRefSep) (Re.plus true (.cls clsAlnum)))))))) (.cap .autosymbol (.chr '*'))))) (.seq
    (.chr ']') (.alt (Re.plus true (.chr ' ')) .eos)))))))

/-- `CITATION_PATTERN`, `/repo/src/parser/regex_patterns.rs` l.213-214. -/
def reCitation : Re :=
  (.seq (.cap .g1 (.star true (.cls isWs))) (.seq (Re.lit (str! "..")) (.seq (Re.plus true (.chr ' ')) (.seq
    (.chr '[') (.seq (.cap .g2 (.seq (.cls clsAlpha) (.seq (.star true (.cls clsAlnum)) (.star true (.seq
    (.cls clsRefSep) (Re.plus true (.cls clsAlnum))))))) (.seq (.chr ']') (.alt (Re.plus true (.chr ' '))
    .eos)))))))

/-- `HYPERLINK_TARGET_PATTERN`, `/repo/src/parser/regex_patterns.rs` l.218-219. -/
def reHyperlinkTarget : Re :=
  (.seq (.cap .g1 (.star true (.cls isWs))) (.seq (Re.lit (str! "..")) (.seq (Re.plus true (.chr ' ')) (.seq
    (.chr '_') (.seq (.cap .g2 (.alt (.seq (.cls clsAlnum) (.seq (.star true (.cls clsAlnumSpace)) (.seq
    (.star true (.seq (.cls clsRefSep) (Re.plus true (.cls clsAlnumSpace)))) (Re.plus true (.cls clsAlnum)))))
    (.chr '_'))) (.seq (.chr ':') (.alt (Re.plus true (.chr ' ')) .eos)))))))

/-- `DIRECTIVE_PATTERN`, `/repo/src/parser/regex_patterns.rs` l.226-227. -/
def reDirective : Re :=
  (.seq (.cap .g1 (.star true (.cls isWs))) (.seq (Re.lit (str! "..")) (.seq (Re.plus true (.chr ' ')) (.seq
    (.cap .g2 (.seq (.cls clsAlpha) (.seq (Re.plus true (.cls clsAlnum)) (.star true (.seq (.cls clsRefSep)
    (Re.plus true (.cls clsAlnum))))))) (.seq (Re.opt (.chr ' ')) (.seq (Re.lit (str! "::")) (.alt (Re.plus
    true (.chr ' ')) .eos)))))))

/-- `COMMENT_PATTERN`, `/repo/src/parser/regex_patterns.rs` l.231-231. -/
def reComment : Re :=
  (.seq (.cap .g1 (.star true (.cls isWs))) (.seq (Re.lit (str! "..")) (.alt (Re.plus true (.chr ' ')) .eos)))

/-- `LINE_PATTERN`, `/repo/src/parser/regex_patterns.rs` l.234-234. -/
def reLine : Re :=
  (.seq (.cap .g1 (Re.alts [(Re.plus true (.chr '!')), (Re.plus true (.chr '"')), (Re.plus true (.chr '#')),
    (Re.plus true (.chr '$')), (Re.plus true (.chr '%')), (Re.plus true (.chr '&')), (Re.plus true (.chr
    '\'')), (Re.plus true (.chr '(')), (Re.plus true (.chr ')')), (Re.plus true (.chr '*')), (Re.plus true
    (.chr '+')), (Re.plus true (.chr ',')), (Re.plus true (.chr '-')), (Re.plus true (.chr '.')), (Re.plus
    true (.chr '/')), (Re.plus true (.chr ':')), (Re.plus true (.chr ';')), (Re.plus true (.chr '<')),
    (Re.plus true (.chr '=')), (Re.plus true (.chr '>')), (Re.plus true (.chr '?')), (Re.plus true (.chr
    '@')), (Re.plus true (.chr '[')), (Re.plus true (.chr '\\')), (Re.plus true (.chr ']')), (Re.plus true
    (.chr '^')), (Re.plus true (.chr '_')), (Re.plus true (.chr '`')), (Re.plus true (.chr '{')), (Re.plus
    true (.chr '|')), (Re.plus true (.chr '}')), (Re.plus true (.chr '~'))])) (.seq (.star true (.chr ' '))
    .eos))

/-- `TEXT_PATTERN`, `/repo/src/parser/regex_patterns.rs` l.239-239. -/
def reText : Re :=
  (.seq (.cap .g1 (.star true (.cls isWs))) (.cls nonWs))

/-- `INLINE_WHITESPACE_PATTERN`, `/repo/src/parser/regex_patterns.rs` l.245-245. -/
def reInlineWhitespace : Re :=
  (Re.plus true (.cls isWs))

/-- `STRONG_EMPH_PATTERN`, `/repo/src/parser/regex_patterns.rs` l.247-263. -/
def reStrongEmph : Re :=
  (.seq (Re.opt (.cap .lookbehind (.cls clsLookbehind))) (.seq (.cap .markupStart (Re.lit (str! "**"))) (.seq
    (.cap .content (.alt (.cls clsNonWsNonBackslash) (.seq (.cls nonWs) (.seq (.star false (.cls clsAny))
    (.cls clsNonWsNonBackslash))))) (.seq (.cap .markupEnd (Re.lit (str! "**"))) (.cap .lookahead (.alt (.cls
    isWs) (.alt (.cls clsLookahead) .eos)))))))

/-- `EMPH_PATTERN`, `/repo/src/parser/regex_patterns.rs` l.265-281. -/
def reEmph : Re :=
  (.seq (Re.opt (.cap .lookbehind (.cls clsLookbehind))) (.seq (.cap .markupStart (.chr '*')) (.seq (.cap
    .content (.alt (.cls clsNonWsNonBackslash) (.seq (.cls nonWs) (.seq (.star false (.cls clsAny)) (.cls
    clsNonWsNonBackslash))))) (.seq (.cap .markupEnd (.chr '*')) (.cap .lookahead (.alt (.cls isWs) (.alt
    (.cls clsLookahead) .eos)))))))

/-- `LITERAL_PATTERN`, `/repo/src/parser/regex_patterns.rs` l.283-299. -/
def reLiteral : Re :=
  (.seq (Re.opt (.cap .lookbehind (.cls clsLookbehind))) (.seq (.cap .markupStart (Re.lit (str! "``"))) (.seq
    (.cap .content (.alt (.cls clsNonWsNonBackslash) (.seq (.cls nonWs) (.seq (.star false (.cls clsAny))
    (.cls clsNonWsNonBackslash))))) (.seq (.cap .markupEnd (Re.lit (str! "``"))) (.cap .lookahead (.alt (.cls
    isWs) (.alt (.cls clsLookahead) .eos)))))))

/-- `INLINE_TARGET_PATTERN`, `/repo/src/parser/regex_patterns.rs` l.301-317. -/
def reInlineTarget : Re :=
  (.seq (Re.opt (.cap .lookbehind (.cls clsLookbehind))) (.seq (.cap .markupStart (Re.lit (str! "_`"))) (.seq
    (.cap .content (.alt (.cls clsNonWsNonBackslash) (.seq (.cls nonWs) (.seq (.star false (.cls clsAny))
    (.cls clsNonWsNonBackslash))))) (.seq (.cap .markupEnd (.chr '`')) (.cap .lookahead (.alt (.cls isWs)
    (.alt (.cls clsLookahead) .eos)))))))

/-- `INTERPRETED_TEXT_PATTERN`, `/repo/src/parser/regex_patterns.rs` l.319-346. -/
def reInterpretedText : Re :=
  (.seq (Re.opt (.cap .lookbehind (.cls clsLookbehind))) (.seq (Re.opt (.cap .frontRoleMarker (.seq (.chr ':')
    (.seq (.cap .frontRole (.alt (.cls nonWs) (.seq (.cls nonWs) (.seq (.star false (.cls clsNotNewline))
    (.cls nonWs))))) (.chr ':'))))) (.seq (.cap .markupStart (.chr '`')) (.seq (.cap .content (.alt (.cls
    clsNonWsNonBackslash) (.seq (.cls nonWs) (.seq (.star false (.cls clsAny)) (.cls clsNonWsNonBackslash)))))
    (.seq (.cap .markupEnd (.chr '`')) (.seq (Re.opt (.cap .backRoleMarker (.seq (.chr ':') (.seq (.cap
    .backRole (.alt (.cls nonWs) (.seq (.cls nonWs) (.seq (.star false (.cls clsNotNewline)) (.cls nonWs)))))
    (.chr ':'))))) (.cap .lookahead (.alt (.cls isWs) (.alt (.cls clsLookahead) .eos)))))))))

/-- `PHRASE_REF_PATTERN`, `/repo/src/parser/regex_patterns.rs` l.348-375. -/
def rePhraseRef : Re :=
  (.seq (Re.opt (.cap .lookbehind (.cls clsLookbehind))) (.seq (.cap .markupStart (.chr '`')) (.seq (.cap
    .content (.alt (.cls clsNonWsNonBackslash) (.seq (.cls nonWs) (.seq (.star false (.cls clsAny)) (.cls
    clsNonWsNonBackslash))))) (.seq (Re.opt (.cap .embededUriContainer (.seq (Re.plus true (.cls isWs)) (.seq
    (.chr '<') (.seq (.cap .embeddedUri (.alt (.cls clsNonWsNonBackslash) (.seq (.cls nonWs) (.seq (.star
    false (.cls clsAny)) (.cls clsNonWsNonBackslash))))) (.chr '>')))))) (.seq (.cap .markupEnd (.chr '`'))
    (.seq (.cap .refType (.seq (.chr '_') (Re.opt (.chr '_')))) (.cap .lookahead (.alt (.cls isWs) (.alt (.cls
    clsLookahead) .eos)))))))))

/-- `SIMPLE_REF_PATTERN`, `/repo/src/parser/regex_patterns.rs` l.377-390. -/
def reSimpleRef : Re :=
  (.seq (Re.opt (.cap .lookbehind (.cls clsLookbehind))) (.seq (.cap .content (.seq (Re.plus true (.cls
    clsAlnum)) (.star true (.seq (.cls clsSimpleRefSep) (Re.plus true (.cls clsAlnum)))))) (.seq (.cap
    .refType (.seq (.chr '_') (Re.opt (.chr '_')))) (.cap .lookahead (.alt (.cls isWs) (.alt (.cls
    clsLookahead) .eos))))))

/-- `FOOTNOTE_REF_PATTERN`, `/repo/src/parser/regex_patterns.rs` l.392-425. -/
def reFootnoteRef : Re :=
  (.seq (Re.opt (.cap .lookbehind (.cls clsLookbehind))) (.seq (.cap .markupStart (.chr '[')) (.seq (.cap
    .content (.alt (.cap .number (Re.plus true (.cls clsDigit))) (.alt (.cap .autoNumber (.chr '#')) (.alt
    (.seq (.chr '#') (.cap .autoNumberLabel (.seq (.cls clsAlpha) (.star true (.cap .g7 (.seq (Re.opt (.chr
    '-')) (Re.plus true (.cls clsAlnum)))))))) (.cap .symbol (.chr '*')))))) (.seq (.cap .markupEnd (.chr
    ']')) (.seq (.cap .refType (.seq (.chr '_') (Re.opt (.chr '_')))) (.cap .lookahead (.alt (.cls isWs) (.alt
    (.cls clsLookahead) .eos))))))))

/-- `CITATION_REF_PATTERN`, `/repo/src/parser/regex_patterns.rs` l.427-443. -/
def reCitationRef : Re :=
  (.seq (Re.opt (.cap .lookbehind (.cls clsLookbehind))) (.seq (.cap .markupStart (.chr '[')) (.seq (.cap
    .content (.seq (.cls clsAlnum) (.seq (.star true (.cls clsAlnum)) (.star true (.seq (Re.opt (.cls
    clsCiteSep)) (Re.plus true (.cls clsAlnum))))))) (.seq (.cap .markupEnd (Re.lit (str! "]_"))) (.cap
    .lookahead (.alt (.cls isWs) (.alt (.cls clsLookahead) .eos)))))))

/-- `SUBSTITUTION_REF_PATTERN`, `/repo/src/parser/regex_patterns.rs` l.445-464. -/
def reSubstitutionRef : Re :=
  (.seq (Re.opt (.cap .lookbehind (.cls clsLookbehind))) (.seq (.cap .markupStart (.chr '|')) (.seq (.cap
    .content (.alt (.cls clsNonWsNonBackslash) (.seq (.cls nonWs) (.seq (.star false (.cls clsAny)) (.cls
    clsNonWsNonBackslash))))) (.seq (.cap .markupEnd (.chr '|')) (.seq (Re.opt (.cap .refType (.seq (.chr '_')
    (Re.opt (.chr '_'))))) (.cap .lookahead (.alt (.cls isWs) (.alt (.cls clsLookahead) .eos))))))))

/-- `URI_PATTERN`, `/repo/src/parser/regex_patterns.rs` l.466-527. -/
def reUri : Re :=
  (.seq (Re.opt (.cap .lookbehind (.alt (.cls isWs) (.cls clsUriLookbehind)))) (.seq (.cap .content (.alt (.cap
    .absolute (.seq (.seq (.cap .scheme (Re.alts [(Re.lit (str! "about")), (Re.lit (str! "acap")), (Re.lit
    (str! "addbook")), (Re.lit (str! "afp")), (Re.lit (str! "afs")), (Re.lit (str! "aim")), (Re.lit (str!
    "callto")), (Re.lit (str! "castanet")), (Re.lit (str! "chttp")), (Re.lit (str! "cid")), (Re.lit (str!
    "crid")), (Re.lit (str! "data")), (Re.lit (str! "dav")), (Re.lit (str! "dict")), (Re.lit (str! "dns")),
    (Re.lit (str! "eid")), (Re.lit (str! "fax")), (Re.lit (str! "feed")), (Re.lit (str! "file")), (Re.lit
    (str! "finger")), (Re.lit (str! "freenet")), (Re.lit (str! "ftp")), (Re.lit (str! "go")), (Re.lit (str!
    "gopher")), (Re.lit (str! "gsm-sms")), (Re.lit (str! "h323")), (Re.lit (str! "h324")), (Re.lit (str!
    "hdl")), (Re.lit (str! "hnews")), (Re.lit (str! "http")), (Re.lit (str! "https")), (Re.lit (str!
    "hydra")), (Re.lit (str! "iioploc")), (Re.lit (str! "ilu")), (Re.lit (str! "im")), (Re.lit (str! "imap")),
    (Re.lit (str! "info")), (Re.lit (str! "ior")), (Re.lit (str! "ipp")), (Re.lit (str! "irc")), (.seq (Re.lit
    (str! "iris")) (.seq (.cls clsNotNewline) (Re.lit (str! "beep")))), (Re.lit (str! "iseek")), (Re.lit (str!
    "jar")), (Re.lit (str! "javascript")), (Re.lit (str! "jdbc")), (Re.lit (str! "ldap")), (Re.lit (str!
    "lifn")), (Re.lit (str! "livescript")), (Re.lit (str! "lrq")), (Re.lit (str! "mailbox")), (Re.lit (str!
    "mailserver")), (Re.lit (str! "mailto")), (Re.lit (str! "md5")), (Re.lit (str! "mid")), (Re.lit (str!
    "mocha")), (Re.lit (str! "modem")), (Re.lit (str! "mtqp")), (Re.lit (str! "mupdate")), (Re.lit (str!
    "news")), (Re.lit (str! "nfs")), (Re.lit (str! "nntp")), (Re.lit (str! "opaquelocktoken")), (Re.lit (str!
    "phone")), (Re.lit (str! "pop")), (Re.lit (str! "pop3")), (Re.lit (str! "pres")), (Re.lit (str!
    "printer")), (Re.lit (str! "prospero")), (Re.lit (str! "rdar")), (Re.lit (str! "res")), (Re.lit (str!
    "rtsp")), (Re.lit (str! "rvp")), (Re.lit (str! "rwhois")), (Re.lit (str! "rx")), (Re.lit (str! "sdp")),
    (Re.lit (str! "service")), (Re.lit (str! "shttp")), (Re.lit (str! "sip")), (Re.lit (str! "sips")), (Re.lit
    (str! "smb")), (Re.lit (str! "snews")), (Re.lit (str! "snmp")), (.seq (Re.lit (str! "soap")) (.seq (.cls
    clsNotNewline) (Re.lit (str! "beep")))), (.seq (Re.lit (str! "soap")) (.seq (.cls clsNotNewline) (Re.lit
    (str! "beeps")))), (Re.lit (str! "ssh")), (Re.lit (str! "t120")), (Re.lit (str! "tag")), (Re.lit (str!
    "tcp")), (Re.lit (str! "tel")), (Re.lit (str! "telephone")), (Re.lit (str! "telnet")), (Re.lit (str!
    "tftp")), (Re.lit (str! "tip")), (Re.lit (str! "tn3270")), (Re.lit (str! "tv")), (Re.lit (str! "urn")),
    (Re.lit (str! "uuid")), (Re.lit (str! "vemmi")), (Re.lit (str! "videotex")), (Re.lit (str!
    "view-source")), (Re.lit (str! "wais")), (Re.lit (str! "whodp")), (.seq (Re.lit (str! "whoi")) (Re.plus
    true (Re.plus true (.chr 's')))), (Re.lit (str! "x-man-page")), (.seq (Re.lit (str! "xmlrpc")) (.seq (.cls
    clsNotNewline) (Re.lit (str! "beep")))), (.seq (Re.lit (str! "xmlrpc")) (.seq (.cls clsNotNewline) (Re.lit
    (str! "beeps")))), (.seq (Re.lit (str! "z39")) (.seq (.cls clsNotNewline) (Re.lit (str! "50r")))), (.seq
    (Re.lit (str! "z39")) (.seq (.cls clsNotNewline) (Re.lit (str! "50s"))))])) (.chr ':')) (.seq (Re.opt
    (.cap .authority (.seq (Re.opt (.cap .g6 (.seq (.chr '/') (Re.opt (.chr '/'))))) (.seq (Re.opt (.seq (.cap
    .userinfo (.seq (Re.plus true (.cls clsAlnum2)) (.star true (.seq (.chr '.') (Re.plus true (.cls
    clsAlnum2)))))) (.chr '@'))) (.seq (.cap .host (.alt (.seq (Re.plus true (.cls clsAlnum)) (.star true
    (.seq (.cls clsHostSep) (Re.plus true (.cls clsAlnum))))) (.seq (Re.rep 1 3 (.cls clsDigit)) (Re.rep 3 3
    (.seq (.chr '.') (Re.rep 1 3 (.cls clsDigit))))))) (Re.opt (.seq (.chr ':') (.cap .port (Re.plus true
    (.cls clsDigit)))))))))) (.seq (.cap .path (.seq (Re.opt (.chr '/')) (.seq (.star true (.cls clsPathChar))
    (.seq (.star true (.seq (.chr '/') (Re.plus true (.cls clsPathChar2)))) (Re.opt (.chr '/')))))) (.seq
    (.cls clsUriSuffix) (.seq (Re.opt (.seq (.chr '?') (.cap .query (.seq (Re.plus true (.cls clsQueryChar))
    (.cls clsUriSuffix))))) (Re.opt (.seq (.chr '#') (.cap .fragment (.seq (Re.plus true (.cls clsAlnum))
    (.cls clsUriSuffix))))))))))) (.cap .email (.seq (Re.plus true (.cls clsMailChar)) (.seq (.star true (.seq
    (.chr '.') (Re.plus true (.cls clsMailChar2)))) (.seq (.chr '@') (.seq (Re.plus true (.cls clsMailChar))
    (.star true (.seq (.cls clsMailSep) (Re.plus true (.cls clsAlnum))))))))))) (.cap .lookahead (.alt (.cls
    isWs) (.alt (.cls clsUriLookahead) .eos)))))

/-- `INLINE_TEXT_PATTERN`, `/repo/src/parser/regex_patterns.rs` l.530-530. -/
def reInlineText : Re :=
  (.cap .g1 (Re.plus true (.cls nonWs)))

/-- `APLUS_COL_BREAK_PATTERN`, `/repo/src/parser/regex_patterns.rs` l.539-539. -/
def reAplusColBreak : Re :=
  (.seq (.cap .g1 (Re.plus true (.cls isWs))) (Re.lit (str! "::newcol")))

/-- `APLUS_QUESTIONNAIRE_DIRECTIVE_PATTERN`, `/repo/src/parser/regex_patterns.rs` l.542-543. -/
def reAplusQuestionnaireDirective : Re :=
  (.seq (.cap .g1 (.star true (.cls isWs))) (.seq (Re.lit (str! "..")) (.seq (Re.plus true (.chr ' ')) (.seq
    (.cap .g2 (.alt (Re.lit (str! "pick-one")) (.alt (Re.lit (str! "pick-any")) (Re.lit (str! "freetext")))))
    (.seq (Re.lit (str! "::")) (.alt (Re.plus true (.chr ' ')) .eos))))))

/-- `APLUS_PICK_ONE_CHOICE_PATTERN`, `/repo/src/parser/directive_parsers.rs` l.1765-1765. -/
def reAplusPickOneChoice : Re :=
  (.seq (.cap .g1 (.star true (.cls isWs))) (.seq (Re.opt (.cap .preSelected (.chr '+'))) (.seq (Re.opt (.cap
    .correct (.chr '*'))) (.seq (.cap .label (Re.plus true (.cls nonWs))) (.seq (.chr '.') (.seq (Re.plus true
    (.chr ' ')) (.cap .answer (Re.plus true (.cls clsNotNewline)))))))))

/-- `APLUS_PICK_ANY_CHOICE_PATTERN`, `/repo/src/parser/directive_parsers.rs` l.2190-2190. -/
def reAplusPickAnyChoice : Re :=
  (.seq (.cap .g1 (.star true (.cls isWs))) (.seq (Re.opt (.cap .preSelected (.chr '+'))) (.seq (Re.opt (.alt
    (.cap .neutral (.chr '?')) (.cap .correct (.chr '*')))) (.seq (.cap .label (Re.plus true (.cls nonWs)))
    (.seq (.chr '.') (.seq (Re.plus true (.chr ' ')) (.cap .answer (Re.plus true (.cls clsNotNewline)))))))))

/-- `VALID_LENGTH_PATTERN`, `/repo/src/parser/converters.rs` l.409-410. -/
def reValidLength : Re :=
  (.seq (.cap .number (.alt (.seq (Re.plus true (.cls clsDigit)) (Re.opt (.seq (.chr '.') (.star true (.cls
    clsDigit))))) (.seq (.chr '.') (Re.plus true (.cls clsDigit))))) (.seq (.cap .unit (Re.alts [(Re.lit (str!
    "em")), (Re.lit (str! "ex")), (Re.lit (str! "mm")), (Re.lit (str! "cm")), (Re.lit (str! "in")), (Re.lit
    (str! "px")), (Re.lit (str! "pt")), (Re.lit (str! "pc"))])) .eos))

/-- `VALID_PERCENTAGE_PATTERN`, `/repo/src/parser/converters.rs` l.455-456. -/
def reValidPercentage : Re :=
  (.seq (.cap .number (.alt (.seq (Re.plus true (.cls clsDigit)) (Re.opt (.seq (.chr '.') (.star true (.cls
    clsDigit))))) (.seq (.chr '.') (Re.plus true (.cls clsDigit))))) (.seq (.star true (.cls isWs)) (.seq
    (.cap .unit (.chr '%')) .eos)))

/-- `EXERCISE_ARGS_RE`, `/repo/src/parser/directive_parsers.rs` l.3875-3875. -/
def reExerciseArgs : Re :=
  (.seq (Re.opt (.cap .key (Re.plus true (.cls clsAlnum)))) (.seq (.star true (.chr ' ')) (.seq (Re.opt (.cap
    .difficulty (.cls clsUpper))) (Re.opt (.cap .maxPoints (Re.plus true (.cls clsDigit)))))))

/-- `APLUS_PICK_HINT_PATTERN`, `/repo/src/parser/directive_parsers.rs` l.1767-1767. -/
def reAplusPickHint : Re :=
  (.seq (.cap .g1 (.star true (.cls isWs))) (.seq (Re.opt (.cap .showNotAnswered (.chr '!'))) (.seq (.cap .label
    (Re.plus true (.cls nonWs))) (.seq (.star true (.chr ' ')) (.seq (.chr '\u00a7') (.seq (.star true (.chr
    ' ')) (.cap .hint (Re.plus true (.cls clsNotNewline)))))))))

/-- `APLUS_PICK_HINT_PATTERN` of the questions with text, `/repo/src/parser/directive_parsers.rs` l.2823-2824. -/
def reAplusFreetextHint : Re :=
  (.seq (.cap .g1 (.star true (.cls isWs))) (.seq (Re.opt (.cap .showNotAnswered (.chr '!'))) (.seq (.cap .label
    (Re.plus true (.cls clsNotNewline))) (.seq (.star true (.chr ' ')) (.seq (.chr '\u00a7') (.seq (.star true
    (.chr ' ')) (.cap .hint (Re.plus true (.cls clsNotNewline)))))))))

end Rustla