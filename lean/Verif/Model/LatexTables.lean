import Verif.Model.Basic
/-! # Conversion tables of `/repo/src/utf8_to_latex.rs`

Extracted mechanically from the `map.insert` calls, in source order. -/
namespace Rustla

/-- `UTF8_TEXT_TO_LATEX_MAP`, `/repo/src/utf8_to_latex.rs` l.542-558 (code point, replacement). -/
def textTable : List (Nat × Str) := [
  (0x5c, str! "\\textbackslash"),
  (0x5e, str! "\\textasciicircum"),
  (0x5f, str! "\\_"),
  (0x7e, str! "\\~"),
  (0x24, str! "\\$"),
  (0x7b, str! "\\{"),
  (0x7d, str! "\\}"),
  (0x23, str! "\\#"),
  (0x26, str! "\\&"),
  (0x25, str! "\\%")]

/-- The `insert` calls that build `UTF8_MATH_TO_LATEX_MAP`, `/repo/src/utf8_to_latex.rs` l.126-538, in source
order.  A code point may occur repeatedly; `HashMap::insert` keeps the last value. -/
def mathInserts : List (Nat × Str) := [
  (0x23, str! "\\#"),
  (0x24, str! "\\$"),
  (0x25, str! "\\%"),
  (0x7e, str! "\\sim"),
  (0xa2, str! "\\cent"),
  (0xa3, str! "\\pounds"),
  (0xa5, str! "\\yen"),
  (0xa8, str! "\\spddot"),
  (0xac, str! "\\neg"),
  (0xb1, str! "\\pm"),
  (0xb5, str! "\\mathrm{\\mu}"),
  (0xb7, str! "\\cdot"),
  (0xd7, str! "\\times"),
  (0xf7, str! "\\eth"),
  (0x251, str! "\\alpha"),
  (0x300, str! "\\grave"),
  (0x301, str! "\\acute"),
  (0x302, str! "\\hat"),
  (0x303, str! "\\tilde"),
  (0x304, str! "\\bar"),
  (0x305, str! "\\overline"),
  (0x306, str! "\\breve"),
  (0x307, str! "\\dot"),
  (0x308, str! "\\ddot"),
  (0x30a, str! "\\mathring"),
  (0x30c, str! "\\check"),
  (0x330, str! "\\utilde"),
  (0x331, str! "\\underbar"),
  (0x332, str! "\\underline"),
  (0x338, str! "\\not"),
  (0x391, str! "A"),
  (0x392, str! "B"),
  (0x393, str! "\\Gamma"),
  (0x394, str! "\\Delta"),
  (0x395, str! "E"),
  (0x396, str! "Z"),
  (0x397, str! "H"),
  (0x398, str! "\\Theta"),
  (0x399, str! "I"),
  (0x39a, str! "K"),
  (0x39b, str! "\\Lambda"),
  (0x39c, str! "M"),
  (0x39d, str! "N"),
  (0x39e, str! "\\Xi"),
  (0x39f, str! "O"),
  (0x3a0, str! "\\Pi"),
  (0x3a1, str! "P"),
  (0x3a3, str! "\\Sigma"),
  (0x3a4, str! "T"),
  (0x3a5, str! "\\Upsilon"),
  (0x3a6, str! "\\Phi"),
  (0x3a7, str! "X"),
  (0x3a8, str! "\\Psi"),
  (0x3a8, str! "\\Omega"),
  (0x3b1, str! "\\alpha"),
  (0x3b2, str! "\\beta"),
  (0x3b3, str! "\\gamma"),
  (0x3b4, str! "\\delta"),
  (0x3b5, str! "\\varepsilon"),
  (0x3b6, str! "\\zeta"),
  (0x3b7, str! "\\eta"),
  (0x3b8, str! "\\theta"),
  (0x3b9, str! "\\iota"),
  (0x3ba, str! "\\kappa"),
  (0x3bb, str! "\\lambda"),
  (0x3bc, str! "\\mu"),
  (0x3bd, str! "\\nu"),
  (0x3be, str! "\\xi"),
  (0x3bf, str! "o"),
  (0x3c0, str! "\\pi"),
  (0x3c1, str! "\\rho"),
  (0x3c2, str! "\\varsigma"),
  (0x3c3, str! "\\sigma"),
  (0x3c4, str! "\\tau"),
  (0x3c5, str! "\\upsilon"),
  (0x3c6, str! "\\varphi"),
  (0x3c7, str! "\\chi"),
  (0x3c8, str! "\\psi"),
  (0x3c9, str! "\\omega"),
  (0x3d0, str! "\\varbeta"),
  (0x3d1, str! "\\vartheta"),
  (0x3d2, str! "\\Upsilon"),
  (0x3d5, str! "\\phi"),
  (0x3d6, str! "\\varpi"),
  (0x3d8, str! "\\Qoppa"),
  (0x3d9, str! "\\qoppa"),
  (0x3da, str! "\\Stigma"),
  (0x3db, str! "\\stigma"),
  (0x3dc, str! "\\Digamma"),
  (0x3dd, str! "\\digamma"),
  (0x3de, str! "\\Koppa"),
  (0x3df, str! "\\koppa"),
  (0x3e0, str! "\\Sampi"),
  (0x3e1, str! "\\sampi"),
  (0x3f0, str! "\\varkappa"),
  (0x3f1, str! "\\varrho"),
  (0x3f4, str! "\\Theta"),
  (0x3f5, str! "\\epsilon"),
  (0x3f6, str! "\\backepsilon"),
  (0x2000, str! "\\ "),
  (0x2001, str! "\\quad"),
  (0x2002, str! "\\qquad"),
  (0x2003, str! "\\ "),
  (0x2004, str! "\\ "),
  (0x2005, str! "\\ "),
  (0x2006, str! "\\ "),
  (0x2007, str! "\\ "),
  (0x2008, str! "\\ "),
  (0x2009, str! "\\ "),
  (0x200a, str! "\\ "),
  (0x200a, str! "\\ "),
  (0x2010, str! "-"),
  (0x2012, str! "-"),
  (0x2013, str! "-"),
  (0x2014, str! "-"),
  (0x2015, str! "-"),
  (0x2016, str! "\\Vert"),
  (0x2020, str! "\\dagger"),
  (0x2021, str! "\\\\ddagger"),
  (0x2022, str! "\\bullet"),
  (0x2026, str! "\\ldots"),
  (0x2032, str! "\\prime"),
  (0x2033, str! "\\second"),
  (0x2034, str! "\\third"),
  (0x2035, str! "\\backprime"),
  (0x203c, str! "!!"),
  (0x2040, str! "\\cat"),
  (0x2044, str! "/"),
  (0x2047, str! "??"),
  (0x2052, str! "\\:"),
  (0x207a, str! "^{+}"),
  (0x207b, str! "^{-}"),
  (0x207c, str! "^{=}"),
  (0x207d, str! "^{(}"),
  (0x207e, str! "^{)}"),
  (0x208a, str! "^{+}"),
  (0x208b, str! "^{-}"),
  (0x208c, str! "^{=}"),
  (0x208d, str! "^{(}"),
  (0x208e, str! "^{)}"),
  (0x2102, str! "\\mathbb{C}"),
  (0x2107, str! "\\Euler"),
  (0x210a, str! "\\mathcal{g}"),
  (0x210b, str! "\\mathcal{H}"),
  (0x210c, str! "\\mathfrak{H}"),
  (0x210d, str! "\\mathbb{H}"),
  (0x210e, str! "h"),
  (0x210f, str! "\\hslash"),
  (0x2110, str! "\\mathcal{I}"),
  (0x2111, str! "\\Im"),
  (0x2112, str! "\\mathcal{L}"),
  (0x2113, str! "\\ell"),
  (0x2115, str! "\\mathbb{N}"),
  (0x2118, str! "\\wp"),
  (0x2119, str! "\\mathbb{P}"),
  (0x211a, str! "\\mathbb{Q}"),
  (0x211b, str! "\\mathcal{R}"),
  (0x211c, str! "\\Re"),
  (0x211d, str! "\\mathbb{R}"),
  (0x2124, str! "\\mathbb{Z}"),
  (0x2126, str! "\\Omega"),
  (0x2127, str! "\\mho"),
  (0x2128, str! "\\mathfrak{Z}"),
  (0x212b, str! "\\Angstroem"),
  (0x212c, str! "\\mathcal{B}"),
  (0x212d, str! "\\mathfrak{C}"),
  (0x212f, str! "\\mathcal{e}"),
  (0x2130, str! "\\mathcal{E}"),
  (0x2131, str! "\\mathcal{F}"),
  (0x2132, str! "\\Finv"),
  (0x2133, str! "\\mathcal{M}"),
  (0x2134, str! "\\mathcal{o}"),
  (0x2135, str! "\\aleph"),
  (0x2136, str! "\\beth"),
  (0x2137, str! "\\gimel"),
  (0x2138, str! "\\daleth"),
  (0x213c, str! "\\mathbb{pi}"),
  (0x213d, str! "\\mathbb{gamma}"),
  (0x213e, str! "\\mathbb{Gamma}"),
  (0x213f, str! "\\mathbb{Pi}"),
  (0x2140, str! "\\mathbb{Sigma}"),
  (0x2144, str! "\\Yup"),
  (0x2145, str! "\\CapitalDifferentialD"),
  (0x2146, str! "\\DifferentialD"),
  (0x2147, str! "\\ExponentialE"),
  (0x2148, str! "\\ComplexI"),
  (0x2149, str! "\\ComplexJ"),
  (0x214b, str! "\\invamp"),
  (0x2190, str! "\\leftarrow"),
  (0x2191, str! "\\uparrow"),
  (0x2192, str! "\\rightarrow"),
  (0x2193, str! "\\downarrow"),
  (0x2194, str! "\\leftrightarrow"),
  (0x2195, str! "\\nwwnarrow"),
  (0x2196, str! "\\nearrow"),
  (0x2197, str! "\\searrow"),
  (0x2198, str! "\\swarrow"),
  (0x2199, str! "\\nleftarrow"),
  (0x219a, str! "\\nrightarrow"),
  (0x219e, str! "\\twoheadleftarrow"),
  (0x21a0, str! "\\twoheadrightarrow"),
  (0x21a2, str! "\\leftarrowtail"),
  (0x21a3, str! "\\rightarrowtail"),
  (0x21a4, str! "\\mapsfrom"),
  (0x21a5, str! "\\MapsUp"),
  (0x21a6, str! "\\mapsto"),
  (0x21a7, str! "\\MapsDown"),
  (0x21a9, str! "\\heekleftarrow"),
  (0x21aa, str! "\\hookrightarrow"),
  (0x21ab, str! "\\looparrowleft"),
  (0x21ac, str! "\\looparrowright"),
  (0x21ad, str! "\\leftrightsquigarrow"),
  (0x21ae, str! "\\nleftrightarrow"),
  (0x21af, str! "\\lightning"),
  (0x21b6, str! "\\curvearrowleft"),
  (0x21b7, str! "\\curvearrowright"),
  (0x21ba, str! "\\circlearrowleft"),
  (0x21bb, str! "\\circlearrowright"),
  (0x21bc, str! "\\leftharpoonup"),
  (0x21bd, str! "\\leftharpoondown"),
  (0x21be, str! "\\upharpoonright"),
  (0x21bf, str! "\\upharpoonleft"),
  (0x21c0, str! "\\rightharpoonup"),
  (0x21c1, str! "\\rightharpoondown"),
  (0x21c2, str! "\\downharpoonright"),
  (0x21c3, str! "\\downharpoonleft"),
  (0x21c4, str! "\\rightleftarrows"),
  (0x21c5, str! "\\updownarrows"),
  (0x21c6, str! "\\leftrightarrows"),
  (0x21c7, str! "\\leftleftarrows"),
  (0x21c8, str! "\\upuparrows"),
  (0x21c9, str! "\\rightrightarrows"),
  (0x21ca, str! "\\downdownarrows"),
  (0x21cb, str! "\\leftrightharpoons"),
  (0x21cc, str! "\\rightleftharpoons"),
  (0x21cd, str! "\\nLeftarrow"),
  (0x21ce, str! "\\nLeftrightarrow"),
  (0x21cf, str! "\\nRightarrow"),
  (0x21cf, str! "\\nRightarrow"),
  (0x21d0, str! "\\Leftarrow"),
  (0x21d1, str! "\\Uparrow"),
  (0x21d2, str! "\\Rightarrow"),
  (0x21d3, str! "\\Downarrow"),
  (0x21d4, str! "\\Leftrightarrow"),
  (0x21d5, str! "\\Updownarrowarrow"),
  (0x21d6, str! "\\Nwarrow"),
  (0x21d7, str! "\\Searrow"),
  (0x21d8, str! "\\Swarrow"),
  (0x21da, str! "\\Lleftarrow"),
  (0x21db, str! "\\Rrightarrow"),
  (0x21dc, str! "\\leftsquigarrow"),
  (0x21dd, str! "\\rightsquigarrow"),
  (0x21f5, str! "\\downuparrows"),
  (0x2200, str! "\\forall"),
  (0x2201, str! "\\complement"),
  (0x2202, str! "\\partial"),
  (0x2203, str! "\\exists"),
  (0x2204, str! "\\nexists"),
  (0x2205, str! "\\varnothing"),
  (0x2206, str! "\\Delta"),
  (0x2207, str! "\\nabla"),
  (0x2208, str! "\\in"),
  (0x2209, str! "\\notin"),
  (0x220a, str! "\\epsilon"),
  (0x220b, str! "\\ni"),
  (0x220c, str! "\\nni"),
  (0x220f, str! "\\prod"),
  (0x2210, str! "\\coprod"),
  (0x2211, str! "\\sum"),
  (0x2212, str! "-"),
  (0x2213, str! "\\mp"),
  (0x2214, str! "\\dotplus"),
  (0x2215, str! "\\slash"),
  (0x2216, str! "\\smallsetminus"),
  (0x2217, str! "\\ast"),
  (0x2218, str! "\\circ"),
  (0x2219, str! "\\bullet"),
  (0x221a, str! "\\sqrt"),
  (0x221b, str! "\\sqrt[3]"),
  (0x221c, str! "\\sqrt[4]"),
  (0x221d, str! "\\propto"),
  (0x221e, str! "\\infty"),
  (0x2227, str! "\\wedge"),
  (0x2228, str! "\\vee"),
  (0x2229, str! "\\cap"),
  (0x222a, str! "\\cup"),
  (0x222b, str! "\\int"),
  (0x222c, str! "\\iint"),
  (0x222d, str! "\\iiint"),
  (0x222e, str! "\\oint"),
  (0x222f, str! "\\oiint"),
  (0x2230, str! "\\oiiint"),
  (0x2234, str! "\\therefore"),
  (0x2235, str! "\\because"),
  (0x2236, str! ":"),
  (0x2237, str! "\\Proportion"),
  (0x223c, str! "\\sim"),
  (0x223d, str! "\\backsim"),
  (0x2241, str! "\\nsim"),
  (0x2248, str! "\\approx"),
  (0x2249, str! "\\napprox"),
  (0x2254, str! "\\coloneq"),
  (0x2255, str! "\\eqcolon"),
  (0x2259, str! "\\corresponds"),
  (0x2260, str! "\\neq"),
  (0x2261, str! "\\equiv"),
  (0x2262, str! "\\nequiv"),
  (0x2264, str! "\\leq"),
  (0x2265, str! "\\geq"),
  (0x2264, str! "\\ll"),
  (0x2264, str! "\\gg"),
  (0x226e, str! "\\nless"),
  (0x226f, str! "\\ngtr"),
  (0x2270, str! "\\nleq"),
  (0x2271, str! "\\ngeq"),
  (0x227a, str! "\\prec"),
  (0x227b, str! "\\succ"),
  (0x2270, str! "\\preccurlyeq"),
  (0x2270, str! "\\succurlyeq"),
  (0x2270, str! "\\precsim"),
  (0x2270, str! "\\succsim"),
  (0x2270, str! "\\nprec"),
  (0x2270, str! "\\nsucc"),
  (0x2282, str! "\\subset"),
  (0x2283, str! "\\supset"),
  (0x2284, str! "\\nsubset"),
  (0x2285, str! "\\nsupset"),
  (0x2286, str! "\\subseteq"),
  (0x2287, str! "\\supseteq"),
  (0x2288, str! "\\nsubseteq"),
  (0x2289, str! "\\nsupseteq"),
  (0x228a, str! "\\subsetneq"),
  (0x228b, str! "\\supsetneq"),
  (0x22a2, str! "\\vdash"),
  (0x22a3, str! "\\dashv"),
  (0x22a4, str! "\\top"),
  (0x22a5, str! "\\bot"),
  (0x22a7, str! "\\models"),
  (0x22a8, str! "\\vDash"),
  (0x22c0, str! "\\bigwedge"),
  (0x22c1, str! "\\bigvee"),
  (0x22c2, str! "\\bigcap"),
  (0x22c3, str! "\\bigcup"),
  (0x22c4, str! "\\diamond"),
  (0x22c5, str! "\\cdot"),
  (0x22c6, str! "\\star"),
  (0x22ce, str! "\\curlyvee"),
  (0x22cf, str! "\\curlywedge")]

end Rustla
