import Verif.Lemmas.Environments
/-!
# C41: LaTeX environments are balanced
-/
namespace Rustla
open Spec

/-- The texts of a node that the writer puts into the output as they are.  Comments and literal blocks are not among them:
their texts are written with percent signs and escaped, respectively. -/
def copiedTexts : NodeType → List Str
  | .AbsoluteURI t => [t]
  | .Admonition _ _ _ (.Admonition title) => [title]
  | .Attribution t => [t]
  | .Citation _ label => [label]
  | .CitationReference text _ => [text]
  | .Code _ language .. => language.toList
  | .DefinitionListItem term classifiers _ => term :: classifiers
  | .Emphasis t => [t]
  | .FieldListItem name _ _ => [name]
  | .Figure (name := name) .. => name.toList
  | .Image uri alt .. => uri :: alt.toList
  | .Include (uri := uri) .. => [uri]
  | .InterpretedText _ content => [content]
  | .ListTable _ title .. => title.toList
  | .Literal t => [t]
  | .Math t .. => [mathToLatex t]
  | .MathBlock (math_block := block) (name := name) .. => mathToLatex block :: name.toList
  | .Reference text (.Internal r) => r :: text.toList
  | .Reference text (.URI r) => r :: text.toList
  | .Reference text (.EMail r) => r :: text.toList
  | .Section title _ _ => [title]
  | .StrongEmphasis t => [t]
  | .Subscript t => [t]
  | .Superscript t => [t]
  | .Text t => [t]
  | .TitleReference text label => [text, label]
  | .UnknownDirective _ argument options _ => argument :: (options.map (·.1) ++ options.map (·.2))
  | .WhiteSpace t => [t]
  | .SphinxOnly expression _ => [expression]
  | .SphinxCodeBlock (language := language) (code_text := code) .. => [language, code]
  | .AplusPOI title _ id previous next _ class_ _ columns bgimg .. =>
    title :: (id.toList ++ previous.toList ++ next.toList ++ class_.toList ++ columns.toList ++ bgimg.toList)
  | .AplusQuestionnaire (key := key) .. => [key]
  | .AplusPickOne _ _ class_ _ key _ => class_.toList ++ key.toList
  | .AplusPickAny _ _ class_ _ key .. => class_.toList ++ key.toList
  | .AplusFreeText _ _ method answer .. => [method, answer]
  | .AplusPickChoice label .. => [label]
  | .AplusQuestionnaireHint label .. => [label]
  | .AplusSubmit (key := key) (config := config) (class_ := class_) (title := title) (category := category)
      (lti_resource_link_id := link) .. => [key, config, class_, title, category, link]
  | .AplusActiveElementInput key title default class_ _ _ _ type file =>
    key :: (title.toList ++ default.toList ++ class_.toList ++ file.toList ++
      (match type with | some (.Dropdown s) => [s] | _ => []))
  | .AplusActiveElementOutput key config inputs title class_ .. =>
    [key, config, inputs] ++ title.toList ++ class_.toList
  | _ => []

/-- What goes wrong with a node whatever its texts are: raw nodes, whose environment is closed under another name, images
with a scale, where a percent sign comments out the rest of the line, roles named `begin` and `end` or with characters
that are special in LaTeX, and unknown directives with a brace in their name. -/
def oddNode : NodeType → Prop
  | .Raw => True
  | .Image _ _ _ _ scale .. => scale.isSome
  | .InterpretedText role _ => role = str! "begin" ∨ role = str! "end" ∨ '\\' ∈ role ∨ '%' ∈ role ∨ '{' ∈ role
  | .UnknownDirective name .. => '}' ∈ toLower name
  | _ => False

/-- Numbers are written without backslashes and percent signs, and no options are invented. -/
structure SaneEnv (w : WriterEnv) : Prop where
  shortest : ∀ x, '\\' ∉ w.shortest x ∧ '%' ∉ w.shortest x
  twoDecimals : ∀ x, '\\' ∉ w.twoDecimals x ∧ '%' ∉ w.twoDecimals x
  order : ∀ l, ∀ x ∈ w.order l, x ∈ l

/-- The environments that a node opens. -/
def envOf (w : WriterEnv) : NodeType → List Str
  | .Admonition _ _ _ (.Admonition _) => [str! "admonition"]
  | .Admonition _ _ _ v => [admonitionStr v]
  | .BlockQuote _ => [str! "quotation"]
  | .BulletList .. | .DefinitionList _ | .FieldList _ => [str! "itemize"]
  | .Code .. | .LiteralBlock _ | .SphinxCodeBlock .. => [str! "codeblock"]
  | .Document => if w.fullDocument then [str! "document"] else []
  | .EnumeratedList .. => [str! "enumerate"]
  | .Figure .. => [str! "center"]
  | .ListTable .. => [str! "tabular"]
  | .MathBlock .. => [str! "equation"]
  | .UnknownDirective name .. => [toLower name]
  | .SphinxOnly .. => [str! "only"]
  | .AplusPOI .. => [str! "poi"]
  | .AplusQuestionnaire .. => [str! "quiz"]
  | .AplusPickOne .. | .AplusPickAny .. => [str! "pick"]
  | .AplusFreeText .. => [str! "freetext"]
  | .AplusPickChoices _ => [str! "answers"]
  | .AplusSubmit .. => [str! "submit"]
  | _ => []

theorem settled_length {w : WriterEnv} (hw : SaneEnv w) (l : Length) : Settled (lengthStr w l) := by
  cases l <;> exact settled_append (settled_plain (hw.shortest _).1 (hw.shortest _).2) (turns_lit rfl)

theorem settled_anchor {cmd name : Str} (hc : cmd = str! "label" ∨ cmd = str! "rstlabel" ∨ cmd = []) (h : Settled name) :
    Settled (anchor cmd name) := by
  rcases hc with rfl | rfl | rfl
  · exact settled_append (settled_append (turns_lit (s := str! "\\label{") rfl) h) (turns_lit rfl)
  · exact settled_append (settled_append (turns_lit (s := str! "\\rstlabel{") rfl) h) (turns_lit rfl)
  · exact settled_nil

theorem settled_anchors {data : NodeType} {labels : Option (List Str)} {cmd : Str} {name : Option Str}
    (hk : anchorKind data = (name, cmd)) (hc : cmd = str! "label" ∨ cmd = str! "rstlabel" ∨ cmd = [])
    (hn : ∀ n, name = some n → Settled n) (hl : ∀ l ∈ labels.getD [], Settled l) : Settled (anchorString data labels) := by
  unfold anchorString
  rw [hk]
  refine settled_append (settled_given fun n h => settled_anchor hc (hn n h)) (settled_flatten fun s hs => ?_)
  obtain ⟨l, h1, rfl⟩ := List.mem_map.1 hs
  exact settled_anchor hc (hl l h1)

theorem settled_sectionCommand (level : Nat) (title : Str) (h : Settled title) :
    Settled (str! "\\" ++ sectionCommand level ++ str! "{" ++ title ++ str! "}\n\n") := by
  refine settled_append (settled_append ?_ h) (turns_lit rfl)
  unfold sectionCommand
  split
  · exact turns_lit rfl
  · split
    · exact turns_lit rfl
    · split <;> exact turns_lit rfl

theorem settled_imageOptions {w : WriterEnv} (hw : SaneEnv w) {alt : Option Str} (ha : ∀ a, alt = some a → Settled a)
    (height width : Option Length) (align : Option HTMLAlignment) :
    ∀ s ∈ imageOptions w alt height width none align, Settled s := by
  intro s hs
  simp only [imageOptions, List.mem_append, Option.mem_toList, Option.map_eq_some_iff, Option.map_none] at hs
  rcases hs with (((hs | ⟨l, _, rfl⟩) | ⟨l, _, rfl⟩) | hs) | ⟨a, _, rfl⟩
  · exact ha s hs
  · exact settled_append (turns_lit rfl) (settled_length hw l)
  · exact settled_append (turns_lit rfl) (settled_length hw l)
  · cases hs
  · cases a <;> exact turns_lit rfl

theorem settled_columnSpec {w : WriterEnv} (hw : SaneEnv w) (c : TableColWidths) : Settled (columnSpec w c) := by
  cases c with
  | Auto => exact settled_nil
  | Columns ws =>
    refine settled_flatten fun s hs => ?_
    obtain ⟨x, _, rfl⟩ := List.mem_map.1 hs
    exact settled_append (settled_append (turns_lit rfl) (settled_plain (hw.twoDecimals x).1 (hw.twoDecimals x).2))
      (turns_lit rfl)

theorem settled_unknownOptions {w : WriterEnv} (hw : SaneEnv w) {options : List (Str × Str)}
    (h : ∀ o ∈ options, Settled o.1 ∧ Settled o.2) : Settled (unknownOptions w options) := by
  unfold unknownOptions
  refine settled_ite settled_nil (settled_append (settled_append (turns_lit rfl) (settled_joinWith (turns_lit rfl) ?_))
    (turns_lit rfl))
  intro s hs
  obtain ⟨o, h1, rfl⟩ := List.mem_map.1 hs
  have := h o (hw.order _ o h1)
  exact settled_append (settled_append this.1 (turns_lit rfl)) this.2

theorem settled_nonEmptyItem {key value : Str} (hk : Settled key) (hv : Settled value) :
    ∀ s ∈ nonEmptyItem key value, Settled s := by
  intro s hs
  unfold nonEmptyItem at hs
  split at hs
  · cases hs
  · simp only [List.mem_singleton] at hs; subst hs
    exact settled_append (settled_append hk (turns_lit rfl)) hv

theorem settled_submitOptions {config class_ title category lti link : Str} {submissions pass : Nat}
    {status : AplusExerciseStatus} {a b c d e f : Bool} (h1 : Settled config) (h2 : Settled class_) (h3 : Settled title)
    (h4 : Settled category) (h5 : Settled link) :
    ∀ s ∈ submitOptions config submissions pass class_ title category status a b c d lti link e f, Settled s := by
  intro s hs
  have hif : ∀ (p : Bool) (x : Str), Settled x → s ∈ (if p then [x] else []) → Settled s := by
    intro p x hx h
    cases p
    · cases h
    · simp only [if_true, List.mem_singleton] at h; subst h; exact hx
  simp only [submitOptions, List.mem_append] at hs
  rcases hs with ((((((((((((((hs | hs) | hs) | hs) | hs) | hs) | hs) | hs) | hs) | hs) | hs) | hs) | hs) | hs) | hs)
  · exact settled_nonEmptyItem (turns_lit rfl) h1 s hs
  · simp only [List.mem_singleton] at hs; subst hs; exact settled_append (turns_lit rfl) (settled_decimal _)
  · simp only [List.mem_singleton] at hs; subst hs; exact settled_append (turns_lit rfl) (settled_decimal _)
  · exact settled_nonEmptyItem (turns_lit rfl) h2 s hs
  · exact settled_nonEmptyItem (turns_lit rfl) h3 s hs
  · exact settled_nonEmptyItem (turns_lit rfl) h4 s hs
  · simp only [List.mem_singleton] at hs; subst hs; cases status <;> exact turns_lit rfl
  · exact hif _ _ (turns_lit rfl) hs
  · exact hif _ _ (turns_lit rfl) hs
  · exact hif _ _ (turns_lit rfl) hs
  · exact hif _ _ (turns_lit rfl) hs
  · cases hl : lti.isEmpty
    · rw [hl] at hs; simp at hs; subst hs; exact turns_lit rfl
    · rw [hl] at hs; simp at hs
  · exact settled_nonEmptyItem (turns_lit rfl) h5 s hs
  · exact hif _ _ (turns_lit rfl) hs
  · exact hif _ _ (turns_lit rfl) hs

theorem settled_given_option {o : Option Str} {key : Str} (hk : Settled key) (h : ∀ x, o = some x → Settled x) :
    Settled (given o (option key)) := settled_given fun x hx => settled_option hk (h x hx)

theorem settled_given_length {w : WriterEnv} (hw : SaneEnv w) {o : Option Length} {key : Str} (hk : Settled key) :
    Settled (given o fun l => option key (lengthStr w l)) :=
  settled_given fun x _ => settled_option hk (settled_length hw x)

theorem settled_given_decimal {o : Option Nat} {key : Str} (hk : Settled key) :
    Settled (given o fun n => option key (decimal n)) := settled_given fun x _ => settled_option hk (settled_decimal x)

theorem settled_getD {o : Option Str} (h : ∀ x, o = some x → Settled x) : Settled (o.getD []) := by
  cases o with
  | none => exact settled_nil
  | some x => exact h x rfl

theorem settled_reference {text : Option Str} {r : Reference} (h : ∀ t ∈ copiedTexts (.Reference text r), Settled t) :
    Settled (referenceStr text r) := by
  have key : ∀ {a b c t : Str} (x : Str), turnsCheck a [] [] = true → turnsCheck b [] [] = true →
      turnsCheck c [] [] = true → Settled x → Settled t → Settled (a ++ x ++ b ++ t ++ c) := by
    intro a b c t x h1 h2 h3 h4 h5
    exact settled_append (settled_append (settled_append (settled_append (turns_lit h1) h4) (turns_lit h2)) h5) (turns_lit h3)
  have one : ∀ {a b : Str} (x : Str), turnsCheck a [] [] = true → turnsCheck b [] [] = true → Settled x →
      Settled (a ++ x ++ b) := by
    intro a b x h1 h2 h3
    exact settled_append (settled_append (turns_lit h1) h3) (turns_lit h2)
  cases r <;> cases text <;> simp only [copiedTexts, Option.toList, List.mem_cons, List.not_mem_nil, or_false, forall_eq,
    forall_eq_or_imp] at h <;> unfold referenceStr <;>
    first
      | exact one _ (by decide) (by decide) h
      | exact key _ (by decide) (by decide) (by decide) h h
      | exact key _ (by decide) (by decide) (by decide) h.1 h.2

/-- Piece by piece. -/
macro "settle" : tactic => `(tactic| repeat' with_reducible first
  | assumption
  | apply turns_settled
  | exact settled_decimal _
  | (apply settled_length; assumption)
  | (apply settled_columnSpec; assumption)
  | exact settled_escapeText _
  | apply settled_bracketed
  | apply settled_flag
  | apply settled_option
  | apply settled_given_option
  | apply settled_given_length
  | apply settled_given_decimal
  | apply settled_getD
  | (apply turns_lit; with_unfolding_all decide; done))

set_option hygiene false in
/-- The texts of a node, one by one, and then piece by piece. -/
macro "easy" : tactic => `(tactic| (
  cases h
  dsimp only [envOf]
  try simp only [copiedTexts, List.mem_cons, List.not_mem_nil, or_false, forall_eq, forall_eq_or_imp, List.mem_append,
    Option.mem_toList, or_imp, forall_and] at hx
  try obtain ⟨_, _⟩ := hx
  settle))

theorem pre_turns (w : WriterEnv) (hw : SaneEnv w) (labels : Option (List Str)) (data : NodeType) (s : Str)
    (hl : ∀ l ∈ labels.getD [], Settled l) (hx : ∀ t ∈ copiedTexts data, Settled t) (ho : ¬ oddNode data)
    (h : preString w labels data = .ok s) : Turns s [] (envOf w data) := by
  cases data
  case AbsoluteURI => easy
  case Attribution => easy
  case BlockQuote => easy
  case BulletList => easy
  case BulletListItem => easy
  case Caption => easy
  case Citation => easy
  case CitationReference => easy
  case Class => easy
  case DefinitionList => easy
  case Emphasis => easy
  case EmptyLine => easy
  case Entry => easy
  case EnumeratedList => easy
  case EnumeratedListItem => easy
  case FieldList => easy
  case FieldListItem => easy
  case Figure => easy
  case Footnote => easy
  case FootnoteReference => easy
  case Include => easy
  case Literal => easy
  case LiteralBlock => easy
  case Math => easy
  case Paragraph => easy
  case StrongEmphasis => easy
  case Subscript => easy
  case Superscript => easy
  case TBody => easy
  case Text => easy
  case TRow => easy
  case TitleReference => easy
  case Transition => easy
  case WhiteSpace => easy
  case SphinxOnly => easy
  case SphinxCodeBlock => easy
  case AplusColBreak => easy
  case AplusQuestionnaire => easy
  case AplusFreeText => easy
  case AplusPickChoices => easy
  case AplusQuestionnaireHints => easy
  case Admonition _ _ _ v =>
    cases v
    case Admonition => easy
    all_goals (cases h; dsimp only [envOf, admonitionStr]; exact turns_lit (by decide))
  case Raw => exact absurd trivial ho
  case AplusPickOne => easy
  case AplusPickAny => easy
  case AplusPOI =>
    cases h
    dsimp only [envOf]
    simp only [copiedTexts, List.mem_cons, forall_eq, List.mem_append, Option.mem_toList, or_imp, forall_and] at hx
    obtain ⟨_, ⟨⟨⟨⟨_, _⟩, _⟩, _⟩, _⟩, _⟩ := hx
    settle
  case AplusPickChoice _ correct _ neutral =>
    cases h; dsimp only [envOf]; cases neutral <;> cases correct <;> exact turns_lit (by decide)
  case AplusQuestionnaireHint label hidden type =>
    cases h
    dsimp only [envOf]
    simp only [copiedTexts, List.mem_cons, List.not_mem_nil, or_false, forall_eq] at hx
    have : Settled (hintReference label type) := by cases type <;> (dsimp only [hintReference]; settle)
    settle
  case AplusSubmit =>
    cases h
    dsimp only [envOf]
    simp only [copiedTexts, List.mem_cons, List.not_mem_nil, or_false, forall_eq, forall_eq_or_imp] at hx
    obtain ⟨_, h1, h2, h3, h4, h5⟩ := hx
    refine turns_settled (turns_settled (turns_settled (turns_settled (turns_settled (turns_settled (turns_lit
      (by decide)) (settled_joinWith (turns_lit (by decide)) (settled_submitOptions h1 h2 h3 h4 h5))) ?_) ?_) ?_) ?_) ?_ <;> settle
  case AplusActiveElementInput key title default class_ width height clear type file =>
    cases h
    dsimp only [envOf]
    simp only [copiedTexts, List.mem_cons, forall_eq, List.mem_append, Option.mem_toList, or_imp, forall_and] at hx
    obtain ⟨_, ⟨⟨⟨_, _⟩, _⟩, hf⟩, ht⟩ := hx
    have h1 : Settled (given clear clearStr) := settled_given fun c _ => by cases c <;> exact turns_lit (by decide)
    have h2 : Settled (given type inputTypeStr) := settled_given fun c hc => by
      subst hc
      cases c with
      | File => exact turns_lit (by decide)
      | Clickable => exact turns_lit (by decide)
      | Dropdown s =>
        have := ht s (by simp)
        dsimp only [inputTypeStr]; settle
    have h3 : Settled (inputFileStr type file) := by
      unfold inputFileStr
      split
      · have := hf _ rfl; settle
      · exact settled_nil
    settle
  case AplusActiveElementOutput key config inputs title class_ width height clear type submissions scale status =>
    cases h
    dsimp only [envOf]
    simp only [copiedTexts, List.mem_cons, List.not_mem_nil, or_false, List.mem_append, Option.mem_toList, or_imp,
      forall_and, forall_eq] at hx
    obtain ⟨⟨⟨_, _, _⟩, _⟩, _⟩ := hx
    have h1 : Settled (given clear clearStr) := settled_given fun c _ => by cases c <;> exact turns_lit (by decide)
    have h2 : Settled (outputTypeStr type) := by cases type <;> exact turns_lit (by decide)
    have h3 : Settled (outputStatus status) := by cases status <;> exact turns_lit (by decide)
    settle
  case Code _ language _ _ _ =>
    cases h
    dsimp only [envOf]
    simp only [copiedTexts, Option.mem_toList] at hx
    have : Settled (given language fun l => str! "[" ++ l ++ str! "]") :=
      settled_given fun l hl => by have := hx l hl; settle
    settle
  case Comment t =>
    cases h
    exact settled_given fun x _ => settled_comment x
  case DefinitionListItem term classifiers _ =>
    cases h
    dsimp only [envOf]
    simp only [copiedTexts, List.mem_cons, forall_eq_or_imp] at hx
    obtain ⟨_, h2⟩ := hx
    have : Settled (if classifiers.isEmpty = true then [] else str! ": " ++ joinWith (str! ", ") classifiers) :=
      settled_ite settled_nil (settled_append (turns_lit (by decide)) (settled_joinWith (turns_lit (by decide)) h2))
    settle
  case Document =>
    cases h
    dsimp only [envOf]
    cases w.fullDocument
    · exact settled_nil
    · exact turns_lit (by decide)
  case Image uri alt height width scale align target name class_ inl =>
    cases h
    dsimp only [envOf]
    simp only [copiedTexts, List.mem_cons, forall_eq_or_imp, Option.mem_toList] at hx
    obtain ⟨_, ha⟩ := hx
    have hs : scale = none := by
      cases scale with
      | none => rfl
      | some x => exact absurd rfl ho
    subst hs
    have := settled_joinWith (sep := str! ",") (turns_lit (by decide)) (settled_imageOptions hw ha height width align)
    settle
  case InterpretedText role content =>
    cases h
    dsimp only [envOf]
    simp only [copiedTexts, List.mem_cons, List.not_mem_nil, or_false, forall_eq] at hx
    simp only [oddNode, not_or] at ho
    have := settled_command role ho.2.2.1 ho.2.2.2.1 ho.2.2.2.2 ho.1 ho.2.1
    settle
  case ListTable _ title widths _ _ _ _ =>
    cases widths with
    | none => cases h
    | some widths =>
      cases h
      dsimp only [envOf]
      simp only [copiedTexts, Option.mem_toList] at hx
      have : Settled (given title fun t => str! "[title=" ++ t ++ str! "]") :=
        settled_given fun l hl => by have := hx l hl; settle
      settle
  case MathBlock block name class_ =>
    cases h
    dsimp only [envOf]
    simp only [copiedTexts, List.mem_cons, forall_eq_or_imp, Option.mem_toList] at hx
    have h1 := settled_anchors (data := .MathBlock block name class_) rfl (.inr (.inl rfl)) hx.2 hl
    have h2 := hx.1
    refine turns_settled (turns_settled (settled_turns h1 (turns_lit (by decide))) h2) (turns_lit (by decide))
  case Reference text r =>
    cases h
    exact settled_reference hx
  case «Section» title level style =>
    cases h
    dsimp only [envOf]
    simp only [copiedTexts, List.mem_cons, List.not_mem_nil, or_false, forall_eq] at hx
    have h1 := settled_anchors (data := .Section title level style) rfl (.inr (.inl rfl)) (by simp) hl
    have h2 := settled_append h1 (settled_sectionCommand level title hx)
    simpa using h2
  case UnknownDirective name argument options _ =>
    cases h
    dsimp only [envOf]
    simp only [copiedTexts, List.mem_cons, forall_eq, List.mem_append, or_imp, forall_and, List.mem_map,
      forall_exists_index, and_imp, forall_apply_eq_imp_iff₂] at hx
    obtain ⟨h1, h2, h3⟩ := hx
    have h4 := settled_unknownOptions hw (options := options) fun o ho => ⟨h2 o ho, h3 o ho⟩
    have h5 : Settled (if (trim argument).isEmpty = true then [] else str! "{" ++ argument ++ str! "}") :=
      settled_ite settled_nil (by settle)
    exact turns_settled (turns_settled (turns_settled (turns_begin _ ho) h4) h5) (turns_lit (by decide))
  all_goals cases h

theorem post_turns (w : WriterEnv) (labels : Option (List Str)) (data : NodeType) (s : Str)
    (hl : ∀ l ∈ labels.getD [], Settled l) (hx : ∀ t ∈ copiedTexts data, Settled t) (ho : ¬ oddNode data)
    (h : postString w labels data = .ok s) : Turns s (envOf w data) [] := by
  cases data
  case Raw => exact absurd trivial ho
  case Admonition _ _ _ v => cases v <;> (cases h; dsimp only [envOf, admonitionStr]; exact turns_lit (by decide))
  case Entry last => cases h; dsimp only [envOf]; cases last <;> exact turns_lit (by decide)
  case Image inl => cases h; dsimp only [envOf]; cases inl <;> exact turns_lit (by decide)
  case Document =>
    cases h
    dsimp only [envOf]
    cases w.fullDocument
    · exact settled_nil
    · exact turns_lit (by decide)
  case Figure a b c d name =>
    cases h
    dsimp only [envOf]
    simp only [copiedTexts, Option.mem_toList] at hx
    exact settled_turns (settled_anchors (data := .Figure a b c d name) rfl (.inl rfl) hx hl) (turns_lit (by decide))
  case UnknownDirective name _ _ _ =>
    cases h
    have h1 := turns_settled (turns_end (toLower name) ho) (t := str! "\n\n") (turns_lit (by decide))
    simpa [envOf] using h1
  case AplusPickChoice label _ _ _ =>
    cases h
    dsimp only [envOf]
    simp only [copiedTexts, List.mem_cons, List.not_mem_nil, or_false, forall_eq] at hx
    settle
  all_goals first | (cases h; done) | (cases h; dsimp only [envOf, admonitionStr]; exact turns_lit (by decide))

mutual
theorem writeNode_turns (w : WriterEnv) (hw : SaneEnv w) : ∀ t : TreeNode,
    (∀ n ∈ preorder t, ¬ oddNode n.data ∧ ∀ s ∈ n.refnames.getD [] ++ copiedTexts n.data, Settled s) →
    (writeNode w t).panic = none → Settled (writeNode w t).text
  | .mk i r c d none, h, hp => by
    obtain ⟨ho, hx⟩ := h _ (self_mem_preorder _)
    have hx1 : ∀ l ∈ r.getD [], Settled l := fun l hl => hx l (List.mem_append_left _ hl)
    have hx2 : ∀ l ∈ copiedTexts d, Settled l := fun l hl => hx l (List.mem_append_right _ hl)
    simp only [writeNode] at hp ⊢
    cases h1 : preString w r d with
    | error e => rw [h1] at hp; simp [writeChunk, Written.andThen] at hp
    | ok s =>
      cases h2 : postString w r d with
      | error e =>
        rw [h1, h2] at hp
        simp [writeChunk, Written.andThen] at hp
      | ok s' =>
        have k1 := pre_turns w hw r d s hx1 hx2 ho h1
        have k2 := post_turns w r d s' hx1 hx2 ho h2
        simp only [writeChunk, Written.andThen, Written.text, List.nil_append, List.cons_append, List.flatten_cons,
          List.flatten_nil, List.append_nil]
        exact turns_append k1 k2
  | .mk i r c d (some l), h, hp => by
    obtain ⟨ho, hx⟩ := h _ (self_mem_preorder _)
    have hx1 : ∀ l ∈ r.getD [], Settled l := fun l hl => hx l (List.mem_append_left _ hl)
    have hx2 : ∀ l ∈ copiedTexts d, Settled l := fun l hl => hx l (List.mem_append_right _ hl)
    simp only [writeNode] at hp ⊢
    cases h1 : preString w r d with
    | error e => rw [h1] at hp; simp [writeChunk, Written.andThen] at hp
    | ok s =>
      cases h2 : postString w r d with
      | error e =>
        rw [h1, h2] at hp
        simp only [writeChunk, Written.andThen] at hp
        cases hc : (writeNodes w l).panic <;> simp [hc] at hp
      | ok s' =>
        rw [h1, h2] at hp
        simp only [writeChunk, Written.andThen] at hp ⊢
        have k1 := pre_turns w hw r d s hx1 hx2 ho h1
        have k2 := post_turns w r d s' hx1 hx2 ho h2
        cases hc : (writeNodes w l).panic with
        | some e => simp [hc] at hp
        | none =>
          have k3 := writeNodes_turns w hw l (fun n hn => h n (by
            rw [preorder]; exact List.mem_cons_of_mem _ hn)) hc
          simp only [Written.text, List.nil_append, List.cons_append, List.flatten_cons, List.flatten_nil,
            List.append_nil, List.flatten_append] at k3 ⊢
          exact turns_append k1 (settled_turns k3 k2)
theorem writeNodes_turns (w : WriterEnv) (hw : SaneEnv w) : ∀ ts : List TreeNode,
    (∀ n ∈ preorderList ts, ¬ oddNode n.data ∧ ∀ s ∈ n.refnames.getD [] ++ copiedTexts n.data, Settled s) →
    (writeNodes w ts).panic = none → Settled (writeNodes w ts).text
  | [], _, _ => settled_nil
  | t :: ts, h, hp => by
    simp only [writeNodes, Written.andThen] at hp ⊢
    cases hc : (writeNode w t).panic with
    | some e => simp [hc] at hp
    | none =>
      simp only [hc] at hp ⊢
      have k1 := writeNode_turns w hw t (fun n hn => h n (by simp [preorderList, hn])) hc
      have k2 := writeNodes_turns w hw ts (fun n hn => h n (by simp [preorderList, hn])) hp
      simp only [Written.text, List.flatten_append] at k1 k2 ⊢
      exact settled_append k1 k2
end

/-- **C41.** For every tree whose texts (those that are copied to the output, and the labels) have balanced environments
themselves, for example none, and without the odd nodes (raw nodes, images with a scale, roles `begin` and `end`): if the
writer does not panic, then the environments of its output are balanced. -/
theorem C41_balanced_partial (w : WriterEnv) (hw : SaneEnv w) (t : TreeNode)
    (h : ∀ n ∈ preorder t, ¬ oddNode n.data ∧ ∀ s ∈ n.refnames.getD [] ++ copiedTexts n.data, BalancedEnvironments s)
    (hp : (writeNode w t).panic = none) : BalancedEnvironments (writeNode w t).text :=
  (settled_iff _).1 (writeNode_turns w hw t
    (fun n hn => ⟨(h n hn).1, fun s hs => (settled_iff s).2 ((h n hn).2 s hs)⟩) hp)

/-- Escaped texts satisfy the hypothesis of `C41_balanced_partial`, whatever the text is. -/
theorem C41_escaped_text (s : Str) : BalancedEnvironments (escapeText s) := (settled_iff _).1 (settled_escapeText s)

/-- Comments cannot unbalance the environments, whatever their text is. -/
theorem C41_comment (s : Str) : BalancedEnvironments (commentStr s) := (settled_iff _).1 (settled_comment s)

/-- **C41 is violated by roles.** A role named `begin` opens an environment that is never closed. -/
theorem C41_violated_role :
    (transpile 40 (sampleEnv false) (str! "f") (str! "d") [str! "a :begin:`x` b", [], []]).output =
      some (str! "a \\begin{x} b\n\n") ∧ ¬ BalancedEnvironments (str! "a \\begin{x} b\n\n") := by
  decide +kernel

/-- **C41 is violated by raw nodes** (which the parser does not make). -/
theorem C41_violated_raw (w : WriterEnv) :
    (writeNode w (.mk 0 none none .Raw none)).text = str! "\\begin{codeblock}\n\\end{raw}\n\n" ∧
    ¬ BalancedEnvironments (str! "\\begin{codeblock}\n\\end{raw}\n\n") := ⟨rfl, by decide⟩

/-- The formatting of the examples is sane. -/
example : SaneEnv (sampleEnv true) :=
  ⟨fun _ => ⟨by simp [sampleEnv], by simp [sampleEnv]⟩, fun _ => ⟨by simp [sampleEnv], by simp [sampleEnv]⟩, fun _ _ h => h⟩

/-- The hypotheses are met by the documents of the examples for C39 and C47, whose output is balanced. -/
example : (∀ n ∈ preorder (.mk 0 none none .Document (some [.mk 1 none none (.BulletList '*' 0 2) (some
      [.mk 2 none none (.BulletListItem '*' 0 2) (some [.mk 3 (some [str! "l"]) none (.Paragraph 2) (some
        [.mk 4 none none (.Text (escapeText (str! "\\begin{x}"))) none])])])])), ¬ oddNode n.data ∧
      ∀ s ∈ n.refnames.getD [] ++ copiedTexts n.data, BalancedEnvironments s) ∧
    BalancedEnvironments (transpile 40 (sampleEnv true) (str! "f") (str! "d") sampleQuestionnaire).text ∧
    BalancedEnvironments (transpile 60 (sampleEnv true) (str! "f") (str! "d") (sampleTable ++ sampleFigure)).text := by
  refine ⟨?_, by decide +kernel, by decide +kernel⟩
  intro n hn
  simp only [preorder, preorderList, List.append_nil, List.mem_cons, List.not_mem_nil, or_false] at hn
  rcases hn with rfl | rfl | rfl | rfl | rfl <;> refine ⟨id, ?_⟩ <;> decide +kernel

end Rustla
