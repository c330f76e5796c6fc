import Verif.Model.Options
import Verif.Model.Latex
import Verif.Model.Common
import Verif.Model.DocTree
/-!
# The LarST writer (`/repo/src/doctree/larst_writer.rs`)

Simplifications: formatting of floating point numbers and the iteration order of hash maps are parameters of the model,
so that theorems hold whatever they are; bytes are characters.
-/
namespace Rustla

/-- What the output depends on besides the tree: the options, the formatting of floating point numbers with `{}` and
`{:.2}` and the iteration order of the hash map of the options of unknown directives.
(`/repo/src/doctree/larst_writer.rs` l.170-1480) -/
structure WriterEnv where
  fullDocument : Bool
  shortest : F64 → Str
  twoDecimals : F64 → Str
  order : List (Str × Str) → List (Str × Str)

/-- `Display for Length`, `/repo/src/common.rs` l.244-258, and `rst_length_to_string`, `/repo/src/doctree/larst_writer.rs` l.1743-1754. -/
def lengthStr (w : WriterEnv) : Length → Str
  | .Em n => w.shortest n ++ str! "em"
  | .Ex n => w.shortest n ++ str! "ex"
  | .Mm n => w.shortest n ++ str! "mm"
  | .Cm n => w.shortest n ++ str! "cm"
  | .In n => w.shortest n ++ str! "in"
  | .Px n => w.shortest n ++ str! "px"
  | .Pt n => w.shortest n ++ str! "pt"
  | .Pc n => w.shortest n ++ str! "pc"

/-- `Display for HTMLAlignment`, `/repo/src/common.rs` l.307-319. -/
def htmlAlignStr : HTMLAlignment → Str
  | .Top => str! "top" | .Middle => str! "middle" | .Bottom => str! "bottom"
  | .Left => str! "left" | .Center => str! "center" | .Right => str! "right"

/-- `Display for AdmonitionType`, `/repo/src/doctree/directives.rs` l.58-75. -/
def admonitionStr : AdmonitionType → Str
  | .Attention => str! "attention" | .Caution => str! "caution" | .Danger => str! "danger" | .Error => str! "error"
  | .Hint => str! "hint" | .Important => str! "important" | .Note => str! "note" | .Tip => str! "tip"
  | .Warning => str! "warning"
  | .Admonition title => str! "admonition: " ++ title

/-- An option that is written if it is given.
(`/repo/src/doctree/larst_writer.rs` l.340-420) -/
def given {α : Type} (o : Option α) (f : α → Str) : Str := (o.map f).getD []

/-- An option that is written if it is set.
(`/repo/src/doctree/larst_writer.rs` l.620-680) -/
def flag (b : Bool) (s : Str) : Str := if b then s else []

/-- `[..]` around options, nothing if there are none.
(`/repo/src/doctree/larst_writer.rs` l.362-362, l.411-411, l.606-606) -/
def bracketed (s : Str) : Str := if s.isEmpty then [] else str! "[" ++ s ++ str! "]"

/-- The names of the anchors of a node and the command that makes an anchor, the first part of `anchor_string`,
`/repo/src/doctree/larst_writer.rs` l.1292-1425. -/
def anchorKind : NodeType → Option Str × Str
  | .Figure (name := n) .. => (n, str! "label")
  | .MathBlock (name := n) .. => (n, str! "rstlabel")
  | .Section .. => (none, str! "rstlabel")
  | _ => (none, [])

/-- One anchor, `/repo/src/doctree/larst_writer.rs` l.1430-1462. -/
def anchor (cmd name : Str) : Str :=
  if cmd.isEmpty then [] else str! "\\" ++ cmd ++ str! "{" ++ name ++ str! "}\n"

/-- `anchor_string`, `/repo/src/doctree/larst_writer.rs` l.1292-1469. -/
def anchorString (data : NodeType) (labels : Option (List Str)) : Str :=
  given (anchorKind data).1 (anchor (anchorKind data).2) ++ ((labels.getD []).map (anchor (anchorKind data).2)).flatten

/-- The command for a section title, `/repo/src/doctree/larst_writer.rs` l.518-526. -/
def sectionCommand (level : Nat) : Str :=
  if level = 1 then str! "chapter" else if level = 2 then str! "section"
  else if level = 3 then str! "subsection" else str! "subsubsection"

/-- The text of a comment, `/repo/src/doctree/larst_writer.rs` l.252-261. -/
def commentStr (text : Str) : Str := ((strLines text).map fun l => str! "% " ++ l ++ str! "\n").flatten ++ str! "\n"

/-- The options of an image, `/repo/src/doctree/larst_writer.rs` l.396-419. -/
def imageOptions (w : WriterEnv) (alt : Option Str) (height width : Option Length) (scale : Option F64)
    (align : Option HTMLAlignment) : List Str :=
  alt.toList ++ (height.map fun h => str! "height=" ++ lengthStr w h).toList ++
  (width.map fun h => str! "width=" ++ lengthStr w h).toList ++
  (scale.map fun s => str! "scale=" ++ w.twoDecimals s ++ str! "%").toList ++
  (align.map fun a => str! "align=" ++ htmlAlignStr a).toList

/-- The column specification of a list table, `/repo/src/doctree/larst_writer.rs` l.449-463. -/
def columnSpec (w : WriterEnv) : TableColWidths → Str
  | .Auto => []
  | .Columns ws => (ws.map fun x => str! "p{" ++ w.twoDecimals x ++ str! "\\textwidth}").flatten

/-- A reference, `/repo/src/doctree/larst_writer.rs` l.483-512. -/
def referenceStr (text : Option Str) : Reference → Str
  | .Internal r => match text with
    | some t => str! "\\hyperref[" ++ r ++ str! "]{" ++ t ++ str! "}"
    | none => str! "\\ref{" ++ r ++ str! "}"
  | .URI r => match text with
    | some t => str! "\\href{" ++ r ++ str! "}{" ++ t ++ str! "}"
    | none => str! "\\url{" ++ r ++ str! "}"
  | .EMail r => match text with
    | some t => str! "\\href{" ++ r ++ str! "}{" ++ t ++ str! "}"
    | none => str! "\\href{" ++ r ++ str! "}{" ++ r ++ str! "}"

/-- `status=..` of a submit exercise, `/repo/src/doctree/larst_writer.rs` l.926-944. -/
def submitStatus : AplusExerciseStatus → Str
  | .Ready => str! "status=ready" | .Unlisted => str! "status=unlisted" | .Hidden => str! "status=hidden"
  | .Enrollment => str! "status=enrollment" | .EnrollmentExt => str! "status=enrollment_ext"
  | .Maintenance => str! "status=maintenance"

/-- `status=..` of an active element output, `/repo/src/doctree/larst_writer.rs` l.1092-1111. -/
def outputStatus : AplusExerciseStatus → Str
  | .Ready => str! "status=ready," | .Unlisted => str! "status=unlisted," | .Hidden => str! "status=hidden,"
  | .Enrollment => str! "status=enrollment," | .EnrollmentExt => str! "status=enrollment-ext,"
  | .Maintenance => str! "status=maintenance,"

/-- `clear=..`, `/repo/src/doctree/larst_writer.rs` l.991-1003 and l.1065-1077. -/
def clearStr : AplusActiveElementClear → Str
  | .Both => str! "clear=both," | .Left => str! "clear=left," | .Right => str! "clear=right,"

/-- `type=..` of an active element input, `/repo/src/doctree/larst_writer.rs` l.1004-1017. -/
def inputTypeStr : AplusActiveElementInputType → Str
  | .File => str! "type=file,"
  | .Clickable => str! "type=clickable,"
  | .Dropdown s => str! "type=dropdown:" ++ s ++ str! ","

/-- `file=..` of an active element input, `/repo/src/doctree/larst_writer.rs` l.1018-1024. -/
def inputFileStr (type : Option AplusActiveElementInputType) (file : Option Str) : Str :=
  match type, file with
  | some .Clickable, some f => str! "file=" ++ f ++ str! ","
  | _, _ => []

/-- `type=..` of an active element output, `/repo/src/doctree/larst_writer.rs` l.1078-1085. -/
def outputTypeStr : AplusActiveElementOutputType → Str
  | .Text => str! "type=text," | .Image => str! "type=image,"

/-- What a hint refers to, `/repo/src/doctree/larst_writer.rs` l.880-885. -/
def hintReference (label : Str) : AplusQuestionnaireType → Str
  | .FreeText => []
  | _ => str! "\\ref{" ++ label ++ str! "}"

/-- `key=value,`.
(`/repo/src/doctree/larst_writer.rs` l.340-420) -/
def option (key value : Str) : Str := key ++ str! "=" ++ value ++ str! ","

/-- An item of the options of a submit exercise with a text that may be empty.
(`/repo/src/doctree/larst_writer.rs` l.930-953) -/
def nonEmptyItem (key value : Str) : List Str := if value.isEmpty then [] else [key ++ str! "=" ++ value]

/-- The options of a submit exercise, `/repo/src/doctree/larst_writer.rs` l.919-953. -/
def submitOptions (config : Str) (submissions pointsToPass : Nat) (class_ title category : Str)
    (status : AplusExerciseStatus) (ajax viewing grading quiz : Bool) (lti link : Str) (iframe getPost : Bool) :
    List Str :=
  nonEmptyItem (str! "config") config ++ [str! "submissions=" ++ decimal submissions] ++
  [str! "points-to-pass=" ++ decimal pointsToPass] ++ nonEmptyItem (str! "class") class_ ++
  nonEmptyItem (str! "title") title ++ nonEmptyItem (str! "category") category ++ [submitStatus status] ++
  (if ajax then [str! "ajax"] else []) ++ (if viewing then [str! "allow-assistant-viewing"] else []) ++
  (if grading then [str! "allow-assistant-grading"] else []) ++ (if quiz then [str! "quiz"] else []) ++
  (if lti.isEmpty then [] else [str! "lti"]) ++ nonEmptyItem (str! "resource_link_id") link ++
  (if iframe then [str! "lti_open_in_iframe"] else []) ++ (if getPost then [str! "lti_aplus_get_and_post"] else [])

/-- The options of an unknown directive, `/repo/src/doctree/larst_writer.rs` l.594-602. -/
def unknownOptions (w : WriterEnv) (options : List (Str × Str)) : Str :=
  if (w.order options).isEmpty then []
  else str! "[" ++ joinWith (str! ",") ((w.order options).map fun o => o.1 ++ str! "=" ++ o.2) ++ str! "]"

/-- `larst_pre_order_string`, `/repo/src/doctree/larst_writer.rs` l.186-1125.  Options that are collected but not written are
left out. -/
def preString (w : WriterEnv) (labels : Option (List Str)) (data : NodeType) : Run Str :=
  match data with
  | .AbsoluteURI t => .ok (str! "\\url{" ++ t ++ str! "}")
  | .Admonition _ _ _ (.Admonition title) => .ok (str! "\\begin{admonition}{" ++ title ++ str! "}\n")
  | .Admonition _ _ _ v => .ok (str! "\\begin{" ++ admonitionStr v ++ str! "}\n")
  | .Attribution t => .ok (str! "-- " ++ t)
  | .BlockQuote _ => .ok (str! "\\begin{quotation}\n")
  | .BulletList .. => .ok (str! "\\begin{itemize}\n")
  | .BulletListItem .. => .ok (str! "\\item ")
  | .Caption _ => .ok (str! "\\captionof{figure}{")
  | .Citation _ label => .ok (str! "\\bibitem{" ++ label ++ str! "}\n")
  | .CitationReference text _ => .ok (str! "\\cite{" ++ text ++ str! "}")
  | .Class .. => .ok []
  | .Code _ language .. => .ok (str! "\\begin{codeblock}" ++ given language (fun l => str! "[" ++ l ++ str! "]") ++ str! "\n")
  | .Comment t => .ok (given t commentStr)
  | .DefinitionList _ => .ok (str! "\\begin{itemize}\n")
  | .DefinitionListItem term classifiers _ =>
    .ok (str! "\\item \\textbf{" ++ term ++ str! "}" ++
      (if classifiers.isEmpty then [] else str! ": " ++ joinWith (str! ", ") classifiers) ++ str! "\n\n")
  | .Document => .ok (flag w.fullDocument (str! "\\documentclass{aplus}\n\\begin{document}\n\n"))
  | .Emphasis t => .ok (str! "\\textit{" ++ t ++ str! "}")
  | .EmptyLine => .ok []
  | .Entry _ => .ok []
  | .EnumeratedList .. => .ok (str! "\\begin{enumerate}\n")
  | .EnumeratedListItem .. => .ok (str! "\\item ")
  | .FieldList _ => .ok (str! "\\begin{itemize}\n")
  | .FieldListItem name _ _ => .ok (str! "\\item \\textbf{" ++ name ++ str! "}\n\n")
  | .Figure .. => .ok (str! "\\begin{center}\n")
  | .Footnote .. => .ok (str! "\\footnote{\n")
  | .FootnoteReference .. => .ok (str! "\\footnotemark")
  | .Image uri alt height width scale align .. =>
    .ok (str! "\\includegraphics" ++ bracketed (joinWith (str! ",") (imageOptions w alt height width scale align)) ++
      str! "{" ++ uri ++ str! "}")
  | .Include (uri := uri) .. => .ok (str! "\\input{" ++ uri ++ str! "}\n")
  | .InterpretedText role content => .ok (str! "\\" ++ role ++ str! "{" ++ content ++ str! "}")
  | .ListTable _ title (some widths) .. =>
    .ok (str! "\\begin{tabular}" ++ given title (fun t => str! "[title=" ++ t ++ str! "]") ++ str! "{" ++
      columnSpec w widths ++ str! "}\n")
  | .ListTable _ _ none .. => .error (.explicit "larst_writer.rs ListTable")
  | .Literal t => .ok (str! "\\texttt{" ++ t ++ str! "}")
  | .LiteralBlock t => .ok (str! "\\begin{codeblock}\n" ++ escapeText t)
  | .Math t .. => .ok (str! "\\(" ++ mathToLatex t ++ str! "\\)")
  | .MathBlock block .. =>
    .ok (anchorString data labels ++ str! "\\begin{equation}\n" ++ mathToLatex block ++ str! "\n")
  | .Paragraph _ => .ok []
  | .Raw => .ok (str! "\\begin{codeblock}\n")
  | .Reference text r => .ok (referenceStr text r)
  | .Section title level _ =>
    .ok (anchorString data labels ++ str! "\\" ++ sectionCommand level ++ str! "{" ++ title ++ str! "}\n\n")
  | .StrongEmphasis t => .ok (str! "\\textbf{" ++ t ++ str! "}")
  | .Subscript t => .ok (str! "\\textsubscript{" ++ t ++ str! "}")
  | .Superscript t => .ok (str! "\\textsuperscript{" ++ t ++ str! "}")
  | .TBody => .ok []
  | .Text t => .ok t
  | .TRow => .ok []
  | .TitleReference text label => .ok (str! "\\hyperref[" ++ label ++ str! "]{" ++ text ++ str! "}")
  | .Transition => .ok (str! "\\hrulefill\n")
  | .UnknownDirective name argument options _ =>
    .ok (str! "\\begin{" ++ toLower name ++ str! "}" ++ unknownOptions w options ++
      (if (trim argument).isEmpty then [] else str! "{" ++ argument ++ str! "}") ++ str! "\n")
  | .WhiteSpace t => .ok t
  | .SphinxOnly expression _ => .ok (str! "\\begin{only}[" ++ expression ++ str! "]\n")
  | .SphinxCodeBlock (language := language) (code_text := code) .. =>
    .ok (str! "\\begin{codeblock}[" ++ language ++ str! "]\n" ++ code)
  | .AplusPOI title _ id previous next hidden class_ height columns bgimg notInSlides notInBook noPoiBox =>
    .ok (str! "\\begin{poi}" ++ bracketed (given id (option (str! "id")) ++ given previous (option (str! "previous")) ++
      given next (option (str! "next")) ++ flag hidden.isSome (str! "hidden,") ++ given class_ (option (str! "class")) ++
      given height (fun l => option (str! "height") (lengthStr w l)) ++ given columns (option (str! "columns")) ++
      given bgimg (option (str! "bgimg")) ++ flag notInSlides.isSome (str! "not_in_slides,") ++
      flag notInBook.isSome (str! "not_in_book,") ++ flag noPoiBox.isSome (str! "no_poi_box,")) ++
      str! "{" ++ title ++ str! "}\n\n")
  | .AplusColBreak => .ok (str! "\\newcol\n\n")
  | .AplusQuestionnaire (points_from_children := points) (key := key) (max_points := maxPoints) .. =>
    .ok (str! "\\begin{quiz}{" ++ key ++ str! "}{" ++ decimal (maxPoints.getD points) ++ str! "}\n")
  | .AplusPickOne _ points class_ required key _ =>
    .ok (str! "\\begin{pick}" ++ bracketed (given class_ (option (str! "id")) ++ flag required (str! "required,") ++
      given key (option (str! "key"))) ++ str! "{one}{" ++ decimal points ++ str! "}\n")
  | .AplusPickAny _ points class_ required key partialPoints randomized correctCount preserve =>
    .ok (str! "\\begin{pick}" ++ bracketed (given class_ (option (str! "id")) ++ flag required (str! "required,") ++
      given key (option (str! "key")) ++ flag partialPoints (str! "partial-points,") ++
      flag randomized (str! "randomized,") ++ given correctCount (fun n => option (str! "correct-count") (decimal n)) ++
      flag preserve (str! "preserve-questions-between-attempts,")) ++ str! "{any}{" ++ decimal points ++ str! "}\n")
  | .AplusFreeText _ points method answer .. =>
    .ok (str! "\\begin{freetext}{" ++ method ++ str! "}{" ++ decimal points ++ str! "}{" ++ answer ++ str! "}\n")
  | .AplusPickChoices _ => .ok (str! "\\begin{answers}\n")
  | .AplusPickChoice _ correct _ neutral =>
    .ok (if neutral then str! "\\undet " else if correct then str! "\\right " else str! "\\wrong ")
  | .AplusQuestionnaireHints _ => .ok []
  | .AplusQuestionnaireHint label showWhenNotSelected type =>
    .ok (str! "\\feedback{" ++ flag (!showWhenNotSelected) (str! "!") ++ hintReference label type ++ str! "}{")
  | .AplusSubmit _ key _ maxPoints config submissions pointsToPass class_ title category status ajax viewing grading
      quiz _ _ _ lti link iframe getPost =>
    .ok (str! "\\begin{submit}[" ++ joinWith (str! ",") (submitOptions config submissions pointsToPass class_ title
      category status ajax viewing grading quiz lti link iframe getPost) ++ str! "]{" ++ key ++ str! "}{" ++
      decimal maxPoints ++ str! "}\n")
  | .AplusActiveElementInput key title default class_ width height clear type file =>
    .ok (str! "\\aeinput" ++ bracketed (given default (option (str! "default")) ++ given class_ (option (str! "class")) ++
      given width (fun l => option (str! "width") (lengthStr w l)) ++
      given height (fun l => option (str! "height") (lengthStr w l)) ++ given clear clearStr ++
      given type inputTypeStr ++ inputFileStr type file) ++ str! "{" ++ key ++ str! "}{" ++ title.getD [] ++ str! "}")
  | .AplusActiveElementOutput key config inputs title class_ width height clear type submissions scaleSize status =>
    .ok (str! "\\aeoutput" ++ bracketed (option (str! "config") config ++ given class_ (option (str! "class")) ++
      given width (fun l => option (str! "width") (lengthStr w l)) ++
      given height (fun l => option (str! "height") (lengthStr w l)) ++ given clear clearStr ++ outputTypeStr type ++
      given submissions (fun n => option (str! "submissions") (decimal n)) ++ flag scaleSize (str! "scale-size,") ++
      outputStatus status) ++ str! "{" ++ key ++ str! "}{" ++ inputs ++ str! "}{" ++ title.getD [] ++ str! "}")
  | _ => .error (.todo "larst_writer.rs larst_pre_order_string")

/-- `larst_post_order_string`, `/repo/src/doctree/larst_writer.rs` l.1128-1289. -/
def postString (w : WriterEnv) (labels : Option (List Str)) (data : NodeType) : Run Str :=
  match data with
  | .AbsoluteURI _ => .ok []
  | .Admonition _ _ _ (.Admonition _) => .ok (str! "\\end{admonition}\n\n")
  | .Admonition _ _ _ v => .ok (str! "\\end{" ++ admonitionStr v ++ str! "}\n\n")
  | .Attribution _ => .ok (str! "\n")
  | .BlockQuote _ => .ok (str! "\\end{quotation}\n\n")
  | .BulletList .. => .ok (str! "\\end{itemize}\n\n")
  | .BulletListItem .. => .ok []
  | .Caption _ => .ok (str! "}\n")
  | .Citation .. => .ok (str! "\n")
  | .CitationReference .. => .ok []
  | .Class .. => .ok []
  | .Code .. => .ok (str! "\\end{codeblock}\n\n")
  | .Comment _ => .ok []
  | .CompoundParagraph .. => .ok (str! "\n")
  | .DefinitionList _ => .ok (str! "\\end{itemize}\n\n")
  | .DefinitionListItem .. => .ok (str! "\n")
  | .Document => .ok (flag w.fullDocument (str! "\\end{document}\n"))
  | .Emphasis _ => .ok []
  | .EmptyLine => .ok []
  | .Entry isLast => .ok (if isLast then [] else str! "&\n")
  | .EnumeratedList .. => .ok (str! "\\end{enumerate}\n\n")
  | .EnumeratedListItem .. => .ok []
  | .ExternalHyperlinkTarget .. => .ok (str! "\n")
  | .FieldList _ => .ok (str! "\\end{itemize}\n\n")
  | .FieldListItem .. => .ok (str! "\n")
  | .Figure .. => .ok (anchorString data labels ++ str! "\\end{center}\n\n")
  | .Footnote .. => .ok (str! "}\n\n")
  | .FootnoteReference .. => .ok []
  | .Image (inline_ := inl) .. => .ok (if inl then [] else str! "\n")
  | .Include .. => .ok []
  | .InterpretedText .. => .ok []
  | .Legend _ => .ok (str! "\n")
  | .Line => .ok (str! "\n")
  | .LineBlock => .ok (str! "\n")
  | .ListTable .. => .ok (str! "\\end{tabular}\n\n")
  | .Literal _ => .ok []
  | .LiteralBlock _ => .ok (str! "\n\\end{codeblock}\n\n")
  | .Math .. => .ok []
  | .MathBlock .. => .ok (str! "\\end{equation}\n\n")
  | .OptionList _ => .ok (str! "\n")
  | .OptionListItem _ => .ok (str! "\n")
  | .Paragraph _ => .ok (str! "\n\n")
  | .ParsedLiteralBlock => .ok (str! "\n\n")
  | .Raw => .ok (str! "\\end{raw}\n\n")
  | .Reference .. => .ok []
  | .Rubric .. => .ok (str! "\n")
  | .Section .. => .ok []
  | .Sidebar _ => .ok (str! "\n")
  | .StrongEmphasis _ => .ok []
  | .Subscript _ => .ok []
  | .SubstitutionDefinition => .ok (str! "\n")
  | .SubstitutionReference .. => .ok []
  | .Subtitle => .ok []
  | .Superscript _ => .ok []
  | .Table .. => .ok (str! "\n")
  | .Target => .ok (str! "\n")
  | .TBody => .ok (str! "\n")
  | .Text _ => .ok []
  | .THead => .ok (str! "\n")
  | .TRow => .ok (str! "\\\\\n")
  | .TitleReference .. => .ok []
  | .Transition => .ok (str! "\n")
  | .UnknownDirective name .. => .ok (str! "\\end{" ++ toLower name ++ str! "}\n\n")
  | .WhiteSpace _ => .ok []
  | .SphinxOnly .. => .ok (str! "\\end{only}\n\n")
  | .SphinxCodeBlock .. => .ok (str! "\\end{codeblock}\n\n")
  | .AplusPOI .. => .ok (str! "\\end{poi}\n\n")
  | .AplusColBreak => .ok []
  | .AplusQuestionnaire .. => .ok (str! "\\end{quiz}\n\n")
  | .AplusPickOne .. => .ok (str! "\\end{pick}\n\n")
  | .AplusPickAny .. => .ok (str! "\\end{pick}\n\n")
  | .AplusFreeText .. => .ok (str! "\\end{freetext}\n\n")
  | .AplusPickChoices _ => .ok (str! "\\end{answers}\n\n")
  | .AplusPickChoice label .. => .ok (str! " \\label{" ++ label ++ str! "}\n")
  | .AplusQuestionnaireHints _ => .ok (str! "\n")
  | .AplusQuestionnaireHint .. => .ok (str! "}\n")
  | .AplusSubmit .. => .ok (str! "\\end{submit}\n\n")
  | .AplusActiveElementInput .. => .ok (str! "\n\n")
  | .AplusActiveElementOutput .. => .ok (str! "\n\n")
  | _ => .error (.todo "larst_writer.rs larst_post_order_string")

/-- What a writer has handed to the output stream, one chunk per call of `write`, and the panic that ended it, if any.
(`/repo/src/doctree/larst_writer.rs` l.96-166) -/
structure Written where
  chunks : List Str
  panic : Option Panic := none
  deriving DecidableEq, Repr

/-- First one writer, then, unless it panicked, another one.
(`/repo/src/doctree/larst_writer.rs` l.96-135) -/
def Written.andThen (a b : Written) : Written :=
  match a.panic with
  | some _ => a
  | none => { chunks := a.chunks ++ b.chunks, panic := b.panic }

/-- `larst_pre_order_write` and `larst_post_order_write`, `/repo/src/doctree/larst_writer.rs` l.154-166: one call of
`write`.  Simplification: the stream reports no error. -/
def writeChunk : Run Str → Written
  | .ok s => { chunks := [s] }
  | .error p => { chunks := [], panic := some p }

mutual
/-- `TreeNode::write_to_larst`, `/repo/src/doctree/larst_writer.rs` l.123-134. -/
def writeNode (w : WriterEnv) : TreeNode → Written
  | .mk _ labels _ data children =>
    (writeChunk (preString w labels data)).andThen
      ((match children with
        | none => ({ chunks := [] } : Written)
        | some cs => writeNodes w cs).andThen (writeChunk (postString w labels data)))
/-- The loop over the children, `/repo/src/doctree/larst_writer.rs` l.126-130. -/
def writeNodes (w : WriterEnv) : List TreeNode → Written
  | [] => { chunks := [] }
  | c :: cs => (writeNode w c).andThen (writeNodes w cs)
end

/-- `TreeZipper::write_to_larst`, `/repo/src/doctree/larst_writer.rs` l.104-117. -/
def writeZipper (w : WriterEnv) (z : Zipper) : Written :=
  match z.walkToRoot with
  | .error p => { chunks := [], panic := some p }
  | .ok r => writeNode w r.node

/-- A stream accepts a number of characters per call of `write`, decided anew for every call; what it does not accept is
lost, since the writer does not look at the returned number.
(`/repo/src/doctree/larst_writer.rs` l.141-165) -/
def received : (Nat → Nat) → List Str → Str
  | _, [] => []
  | accept, c :: cs => c.take (accept 0) ++ received (fun k => accept (k + 1)) cs

end Rustla
