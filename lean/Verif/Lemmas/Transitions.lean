import Verif.Lemmas.Post
/-! # Every transition function builds documents step by step -/
namespace Rustla
open Relation

/-- The post-condition of one of the operations that transition functions are made of. -/
macro "post_prim" : tactic => `(tactic| first
  | exact Post.doc | exact Post.cursor | exact Post.offset | exact Post.level | exact Post.setLevel _
  | exact Post.advance _ | exact Post.skipEmpty _ | exact Post.required _ | exact Post.parent
  | exact Post.pushFocus rfl | exact Post.push rfl | exact Post.tryPush rfl | exact Post.internalTarget _
  | exact Post.anonTarget | exact Post.textBlock _ _ | exact Post.indentedBlock _ _ _ _ _ | exact Post.inlineDoc _
  | exact Post.inlineNone _ | exact Post.arguments _ _ _ _ | exact Post.options _ _ | exact Post.nest ‹NestOk _› _ _ rfl
  | exact Post.answer _ | exact Post.widths _ | exact Post.lift _ )

/-- The last step of a transition function. -/
macro "post_end" : tactic => `(tactic| first
  | exact Post.failed
  | exact Post.pure (movesOk_pop _) | exact Post.pure (movesOk_neither _) | exact Post.pure (movesOk_one rfl _)
  | exact Post.pure (movesOk_push (by assumption) _) | exact Post.pure trivial)

/-- Goes through a transition function. -/
macro "post_go" : tactic => `(tactic| repeat' (first
  | post_end
  | refine Post.bind (by post_prim) (fun _ _ => ?_)
  | split))

theorem leave_ok : Post leave MovesOk := by unfold leave; post_go
theorem enterQuote_ok (i : Nat) : Post (enterQuote i) MovesOk := by unfold enterQuote; post_go

theorem atIndent_ok (i : Nat) {x : P Moves} (hx : Post x MovesOk) : Post (atIndent i x) MovesOk := by
  unfold atIndent
  refine Post.bind Post.doc fun d _ => Post.bind (Post.lift _) fun a _ => ?_
  split
  · exact hx
  · exact enterQuote_ok i
  · exact leave_ok

theorem atIndentOrLeave_ok (i : Nat) {x : P Moves} (hx : Post x MovesOk) : Post (atIndentOrLeave i x) MovesOk := by
  unfold atIndentOrLeave
  refine Post.bind Post.doc fun d _ => Post.bind (Post.lift _) fun a _ => ?_
  split
  · exact hx
  · exact leave_ok

theorem firstBlock_ok {E : Env} (hE : NestOk E) (t : Nat) (f : Option Nat) {st : State} (hs : st.live = true) :
    Post (parseFirstNodeBlock E t f st) (fun r => ∀ s ∈ r.1, s.live = true) := by
  unfold parseFirstNodeBlock
  refine Post.bind (Post.lift _) fun _ _ => Post.bind (Post.lift _) fun _ _ =>
    Post.bind (Post.indentedBlock _ _ _ _ _) fun r _ => ?_
  obtain ⟨lines, offset⟩ := r
  exact Post.bind (Post.nest hE _ _ hs) fun stack h => Post.pure h

theorem currentLine_ok (E : Env) (a : String) : Post (currentLine E a) (fun _ => True) := by
  unfold currentLine
  refine Post.bind Post.offset fun _ _ => ?_
  split
  · exact Post.pure trivial
  · exact (Post.lift _).weaken fun _ _ => trivial

theorem plain_of_inline {nodes : List NodeType} (h : ∀ n ∈ nodes, inlineOutput n.kind = true) :
    ∀ n ∈ nodes, plainData n = true := by
  intro n hn
  have h1 := h n hn
  have h2 : newData n = true := by
    unfold newData; split
    · cases h1
    · cases h1
    · rfl
  simp [plainData, plainKind, h1, h2]

theorem pushParagraph_ok (i : Nat) {nodes : List NodeType} (h : ∀ n ∈ nodes, inlineOutput n.kind = true) :
    Post (pushParagraph i nodes) (fun _ => True) := by
  unfold pushParagraph
  exact Post.bind (Post.pushFocus rfl) fun _ _ => Post.bind (Post.pushAll (plain_of_inline h)) fun _ _ => Post.parent

/-! ## Paragraphs and sections -/

theorem paragraphText_ok (E : Env) (i : Nat) : Post (paragraphText E i) (fun _ => True) := by
  unfold paragraphText; post_go

theorem paragraph_ok (i : Nat) (text : Str) :
    Post (do P.pushFocus (.Paragraph i); fillParagraph text) (fun _ => True) := by
  intro s
  have full : Post (do P.pushFocus (.Paragraph i); fillParagraph text) (fun _ => True) ∨ True := .inr trivial
  constructor
  · intro u s3 h
    obtain ⟨_, s1, h1, h2⟩ := bind_ok h
    obtain ⟨d1, hp, rfl⟩ := orFail_ok h1
    unfold fillParagraph at h2
    obtain ⟨nodes, s2, h3, h4⟩ := bind_ok h2
    obtain ⟨fw, hn⟩ := (Post.inlineDoc text _).1 nodes s2 h3
    split at h4
    · obtain ⟨_, s4, h5, h6⟩ := bind_ok h4
      cases h6
      have hq : ReflTransGen Quiet d1 s2.doc := by
        dsimp only [P.inlineDoc] at h3
        split at h3
        · cases h3
        · rename_i d c hi
          cases h3
          have := (inlineParse_good hi).2.1
          cases d with
          | none => exact absurd this (by simp [QuietOpt])
          | some d => exact this
      have ho : s4.cursor = s2.cursor ∧ s2.doc.focusOnParent = .ok s4.doc := by
        dsimp only [P.parent] at h5
        split at h5
        · cases h5
        · cases h5; exact ⟨rfl, by assumption⟩
      refine ⟨⟨?_, ?_, ReflTransGen.single (.emptied i hp hq ho.2)⟩, trivial⟩
      · simpa [ho.1] using fw.offset
      · simpa [ho.1] using fw.baseline
    · have hk : Post (do P.pushAll nodes; P.parent) (fun _ => True) :=
        Post.bind (Post.pushAll (plain_of_inline hn)) fun _ _ => Post.parent
      obtain ⟨fw2, _⟩ := (hk s2).1 u s3 h4
      refine ⟨⟨Nat.le_trans fw.offset fw2.offset, fw2.baseline.trans fw.baseline, ?_⟩, trivial⟩
      exact ReflTransGen.head (.pushFocus (.Paragraph i) rfl hp) (fw.steps.trans fw2.steps)
  · intro d h
    rcases bind_fail h with h | ⟨_, s1, h1, h2⟩
    · exact ((Post.pushFocus (data := .Paragraph i) rfl) s).2 d h
    · have e1 := (((Post.pushFocus (data := .Paragraph i) rfl) s).1 _ s1 h1).1
      refine (steps_loose e1.steps).trans ?_
      unfold fillParagraph at h2
      rcases bind_fail h2 with h2 | ⟨nodes, s2, h3, h4⟩
      · exact (Post.inlineDoc text s1).2 d h2
      · obtain ⟨fw, hn⟩ := (Post.inlineDoc text s1).1 nodes s2 h3
        refine (steps_loose fw.steps).trans ?_
        split at h4
        · rcases bind_fail h4 with h4 | ⟨_, s4, h5, h6⟩
          · exact (Post.parent s2).2 d h4
          · cases h6
        · have hk : Post (do P.pushAll nodes; P.parent) (fun _ => True) :=
            Post.bind (Post.pushAll (plain_of_inline hn)) fun _ _ => Post.parent
          exact (hk s2).2 d h4

theorem P.bind_assoc {α β γ : Type} (x : P α) (f : α → P β) (g : β → P γ) :
    ((x >>= f) >>= g) = (x >>= fun a => f a >>= g) := by
  funext s
  change P.bind (P.bind x f) g s = P.bind x (fun a => P.bind (f a) g) s
  unfold P.bind
  cases x s <;> rfl

theorem parseParagraph_ok (E : Env) (i : Nat) : Post (parseParagraph E i) MovesOk := by
  unfold parseParagraph
  refine atIndent_ok i ?_
  refine Post.bind (paragraphText_ok E i) fun block _ => ?_
  rw [← P.bind_assoc]
  refine Post.bind (paragraph_ok i _) fun _ _ => ?_
  post_go

theorem leaveForSection_ok : Post leaveForSection MovesOk := by unfold leaveForSection; post_go

theorem section_ok {s : PS} {title : Str} {style : SectionLineStyle} {k : Unit → P Moves}
    (hf : SectionFits s.doc style) (hk : Post (k ()) MovesOk) :
    PostAt s (P.pushFocus (s.doc.newSectionData title style) >>= k) MovesOk := by
  refine PostAt.bind (R := fun _ => True) ?_ fun _ s' _ _ => hk s'
  refine ⟨fun a s' e => ?_, fun d e => ?_⟩
  · obtain ⟨d, h, rfl⟩ := orFail_ok e
    exact ⟨⟨Nat.le_refl _, rfl, ReflTransGen.single (.openSection title style hf h)⟩, trivial⟩
  · exact ReflTransGen.single (.refusedSection title style (orFail_fail e))

theorem openSection_ok (title : Str) (style : SectionLineStyle) (n : Nat) : Post (openSection title style n) MovesOk := by
  intro s
  unfold openSection
  refine PostAt.bind (Post.doc s) fun d s' e _ => ?_
  cases e
  simp only
  split
  · rename_i hd
    exact section_ok (.inl hd) (by post_go)
  · split
    · rename_i l hl
      split
      · exact (Post.bind (Post.setLevel _) fun _ _ => leave_ok) s
      · rename_i hlt
        refine PostAt.bind (Post.setLevel _ s) fun u s' e _ => ?_
        cases e
        exact section_ok (s := { s with sectionLevel := _ }) (.inr ⟨l, hl, Nat.lt_of_not_le hlt⟩) (by post_go)
    · exact leaveForSection_ok s

theorem textAt_ok (E : Env) (g : Nat) : Post (textAt E g) MovesOk := by
  unfold textAt
  refine Post.bind Post.offset fun _ _ => ?_
  split
  · exact parseParagraph_ok E _
  · split
    · split
      · exact Post.failed
      · exact Post.bind (Post.lift _) fun _ _ => Post.bind (currentLine_ok E _) fun _ _ => openSection_ok _ _ _
    · split
      · exact parseParagraph_ok E _
      · split
        · exact atIndent_ok _ (by post_go)
        · exact parseParagraph_ok E _

/-- Transition functions build documents step by step, go forward and enter only live states. -/
def Good (f : Transition) : Prop := ∀ m, Post (f m) MovesOk

theorem bodyText_good (E : Env) : Good (bodyText E) := fun _ => textAt_ok E _

theorem overlined_ok (E : Env) (c : Char) (n : Nat) (t : Str) : Post (overlined E c n t) MovesOk := by
  unfold overlined
  refine Post.bind Post.offset fun _ _ => Post.bind (Post.required _) fun _ _ => ?_
  split
  · exact Post.failed
  · split
    · exact openSection_ok _ _ _
    · exact Post.failed

theorem bodyLine_good (E : Env) : Good (bodyLine E) := by
  intro m
  unfold bodyLine
  refine Post.bind (Post.lift _) fun _ _ => Post.bind Post.offset fun _ _ => Post.bind (Post.required _) fun _ _ => ?_
  refine Post.ite (fun _ => Post.bind (Post.tryPush (data := .Transition) rfl) fun _ _ =>
    Post.ite (fun _ => by post_end) fun _ => leave_ok) fun _ => ?_
  refine Post.ite (fun _ => overlined_ok _ _ _ _) fun _ => ?_
  exact Post.ite (fun _ => parseParagraph_ok _ _) fun _ => Post.failed

theorem emptyLine_good : Good emptyLine := fun _ => by unfold emptyLine; post_go
theorem backUp_good : Good backUp := fun _ => by unfold backUp; post_go

/-! ## Lists -/

theorem bodyBullet_good (E : Env) : Good (bodyBullet E) := by
  intro m
  unfold bodyBullet
  exact Post.bind (Post.lift _) fun _ _ => atIndent_ok _ (by post_go)

theorem listBullet_good {E : Env} (hE : NestOk E) : Good (listBullet E) := by
  intro m
  unfold listBullet
  refine Post.bind (Post.lift _) fun _ _ => Post.bind Post.doc fun _ _ => Post.bind (Post.lift _) fun r _ => ?_
  obtain ⟨b, bi, ti⟩ := r
  simp only
  split
  · refine Post.bind (Post.pushFocus rfl) fun _ _ => Post.bind (firstBlock_ok hE _ _ rfl) fun r h => ?_
    obtain ⟨stack, offset⟩ := r
    exact Post.pure (movesOk_push h _)
  · exact leave_ok

theorem bodyEnumerator_good (E : Env) : Good (bodyEnumerator E) := by
  intro m
  unfold bodyEnumerator
  refine Post.bind (Post.lift _) fun _ _ => Post.bind (Post.required _) fun r _ => ?_
  obtain ⟨number, kind, delims⟩ := r
  refine Post.bind Post.cursor fun _ _ => Post.bind (Post.lift _) fun _ _ => ?_
  split
  · exact textAt_ok E _
  · exact atIndent_ok _ (by post_go)

theorem listEnumerator_good {E : Env} (hE : NestOk E) : Good (listEnumerator E) := by
  intro m
  unfold listEnumerator
  refine Post.bind Post.doc fun _ _ => Post.bind (Post.required _) fun r _ => ?_
  obtain ⟨ld, lk, start, count, li⟩ := r
  refine Post.bind (Post.lift _) fun _ _ => Post.bind (Post.required _) fun r _ => ?_
  obtain ⟨number, kind, delims⟩ := r
  refine Post.bind Post.cursor fun _ _ => Post.bind (Post.lift _) fun _ _ => ?_
  split
  · exact textAt_ok E _
  · split
    · refine Owed.intro (Owed.enumItem rfl ?_)
      refine Post.bind (Post.indentedBlock _ _ _ _ _) fun r _ => ?_
      obtain ⟨lines, offset⟩ := r
      exact Post.bind (Post.nest hE _ _ rfl) fun stack h => Post.pure (movesOk_push h _)
    · exact leave_ok

theorem bodyFieldMarker_good (E : Env) : Good (bodyFieldMarker E) := by
  intro m
  unfold bodyFieldMarker
  exact atIndent_ok _ (by post_go)

theorem listFieldMarker_good {E : Env} (hE : NestOk E) : Good (listFieldMarker E) := by
  intro m
  unfold listFieldMarker
  refine Post.bind Post.cursor fun _ _ => Post.bind Post.doc fun _ _ => Post.bind (Post.required _) fun _ _ => ?_
  split
  · refine Post.bind (Post.inlineNone _) fun _ _ => ?_
    split
    · exact Post.failed
    · refine Post.bind (Post.pushFocus rfl) fun _ _ => Post.bind (firstBlock_ok hE _ _ rfl) fun r h => ?_
      obtain ⟨stack, offset⟩ := r
      exact Post.pure (movesOk_push h _)
  · exact leave_ok

theorem definitionText_good (E : Env) : Good (definitionText E) := by
  intro m
  unfold definitionText
  refine Post.bind Post.offset fun _ _ => ?_
  split
  · exact leave_ok
  · simp only
    split
    · exact leave_ok
    · post_go

/-! ## Explicit markup -/

theorem bodyFootnote_good {E : Env} (hE : NestOk E) : Good (bodyFootnote E) := by
  intro m
  unfold bodyFootnote
  refine Post.bind (Post.required _) fun r _ => ?_
  obtain ⟨kind, text⟩ := r
  refine Post.bind Post.offset fun _ _ => Post.bind Post.doc fun _ _ => Post.bind (Post.required _) fun r _ => ?_
  obtain ⟨label, target⟩ := r
  refine atIndent_ok _ ?_
  refine Post.bind (Post.pushFocus rfl) fun _ _ => Post.bind (firstBlock_ok hE _ _ rfl) fun r h => ?_
  obtain ⟨stack, offset⟩ := r
  exact Post.pure (movesOk_push h _)

theorem bodyCitation_good {E : Env} (hE : NestOk E) : Good (bodyCitation E) := by
  intro m
  unfold bodyCitation
  refine Post.bind Post.offset fun _ _ => ?_
  refine atIndent_ok _ ?_
  refine Post.bind (Post.pushFocus rfl) fun _ _ => Post.bind (firstBlock_ok hE _ _ rfl) fun r h => ?_
  obtain ⟨stack, offset⟩ := r
  exact Post.pure (movesOk_push h _)

theorem targetNode_kind {marker : Nat} {label : Str} {nodes : List NodeType} {n : NodeType}
    (h : targetNode marker label nodes = some n) :
    n.kind = .ExternalHyperlinkTarget ∨ n.kind = .IndirectHyperlinkTarget := by
  unfold targetNode at h
  split at h
  · cases h; exact .inr rfl
  · cases h; exact .inl rfl
  · cases h; exact .inl rfl
  · cases h

theorem targetContent_ok (marker : Nat) (label block : Str) : Post (targetContent marker label block)
    (fun n => n.kind = .ExternalHyperlinkTarget ∨ n.kind = .IndirectHyperlinkTarget) := by
  unfold targetContent
  refine Post.bind (Post.inlineDoc _) fun nodes _ => ?_
  split
  · exact (Post.lift _).weaken fun _ h => by cases h
  · exact (Post.required _).weaken fun _ h => targetNode_kind h

theorem targetLabel_ok (n : Str) : Post (targetLabel n) (fun _ => True) :=
  Post.ite (fun _ => Post.anonTarget) fun _ => Post.pure trivial

theorem bodyHyperlinkTarget_good (E : Env) : Good (bodyHyperlinkTarget E) := by
  intro m
  unfold bodyHyperlinkTarget
  refine Post.bind (targetLabel_ok _) fun label _ => Post.bind Post.offset fun _ _ => atIndent_ok _ ?_
  refine Post.bind (Post.indentedBlock _ _ _ _ _) fun r _ => ?_
  obtain ⟨lines, n⟩ := r
  simp only
  split
  · post_go
  · exact Post.bind (targetContent_ok _ _ _) fun node hn => Post.bind (Post.pushNode hn) fun _ _ => by post_end

theorem bodyComment_good (E : Env) : Good (bodyComment E) := by
  intro m
  unfold bodyComment
  exact Post.bind Post.offset fun _ _ => atIndent_ok _ (by post_go)

theorem attribution_good (E : Env) : Good (attribution E) := by
  intro m
  unfold attribution
  refine atIndent_ok _ ?_
  refine Post.bind (currentLine_ok E _) fun _ _ => ?_
  post_go

theorem indentedLiteral_ok (E : Env) (i : Nat) : Post (indentedLiteral E i) MovesOk := by
  unfold indentedLiteral; post_go

theorem quotedLiteral_ok (E : Env) (i : Nat) (m : Match) : Post (quotedLiteral E i m) MovesOk := by
  unfold quotedLiteral; post_go

theorem literalBlock_good (E : Env) (q : Bool) : Good (literalBlock E q) := by
  intro m
  unfold literalBlock
  refine Post.bind Post.doc fun _ _ => Post.bind (Post.required _) fun _ _ => ?_
  split
  · exact indentedLiteral_ok E _
  · split
    · exact quotedLiteral_ok E _ m
    · exact Post.failed

theorem colBreak_good : Good colBreak := by
  intro m
  unfold colBreak
  exact atIndent_ok _ (by post_go)

/-! ## Directives -/

theorem standardAdmonition_ok {E : Env} (hE : NestOk E) (v : AdmonitionType) (b f : Nat) (e : Bool) :
    Post (parseStandardAdmonition E v b f e) MovesOk := by unfold parseStandardAdmonition; post_go
theorem genericAdmonition_ok (E : Env) (b f : Nat) (e : Bool) : Post (parseGenericAdmonition E b f e) MovesOk := by
  unfold parseGenericAdmonition; post_go
theorem image_ok (E : Env) (b f : Nat) (e : Bool) : Post (parseImage E b f e) MovesOk := by
  unfold parseImage; post_go
theorem figure_ok (E : Env) (b f : Nat) (e : Bool) : Post (parseFigure E b f e) MovesOk := by
  unfold parseFigure; post_go
theorem code_ok (E : Env) (b f : Nat) (e : Bool) : Post (parseCode E b f e) MovesOk := by
  unfold parseCode; post_go

theorem mathNodes_plain (name cls : Option Str) (c : Option Nat) (bs : List Str) :
    ∀ n ∈ mathNodes name cls c bs, plainData n = true := by
  induction bs generalizing c with
  | nil => simp [mathNodes]
  | cons b bs ih =>
    intro n hn
    simp only [mathNodes, List.mem_cons] at hn
    rcases hn with rfl | hn
    · rfl
    · exact ih _ n hn

theorem mathBlock_ok (E : Env) (b f : Nat) (e : Bool) : Post (parseMathBlock E b f e) MovesOk := by
  unfold parseMathBlock
  refine Post.bind (Post.arguments _ _ _ _) fun _ _ => Post.bind (Post.options _ _) fun _ _ => ?_
  simp only
  split
  · post_go
  · refine Post.bind (Post.indentedBlock _ _ _ _ _) fun r _ => ?_
    obtain ⟨lines, offset⟩ := r
    simp only
    split
    · exact Post.failed
    · exact Post.bind (Post.pushAll (mathNodes_plain _ _ _ _)) fun _ _ => by post_end

theorem leaveNested_ok (n : Nat) : Post (leaveNested n) (fun _ => True) := by
  induction n with
  | zero => exact Post.pure trivial
  | succ n ih => exact Post.bind Post.parent fun _ _ => ih

theorem listTable_ok {E : Env} (hE : NestOk E) (b f : Nat) (e : Bool) : Post (parseListTable E b f e) MovesOk := by
  unfold parseListTable
  refine Post.bind (Post.arguments _ _ _ _) fun _ _ => Post.bind (Post.options _ _) fun _ _ =>
    Post.bind (Post.lift _) fun _ _ => Post.bind (Post.skipEmpty _) fun _ _ => Post.bind (Post.pushFocus rfl) fun _ _ =>
    Post.bind (Post.indentedBlock _ _ _ _ _) fun r _ => ?_
  obtain ⟨lines, offset⟩ := r
  refine Post.bind (Post.nest hE _ _ rfl) fun _ _ => Post.bind (leaveNested_ok _) fun _ _ => ?_
  post_go

theorem class_ok {E : Env} (hE : NestOk E) (b f : Nat) (e : Bool) : Post (parseClass E b f e) MovesOk := by
  unfold parseClass; post_go
theorem codeBlock_ok (E : Env) (b f : Nat) (e : Bool) : Post (parseSphinxCodeBlock E b f e) MovesOk := by
  unfold parseSphinxCodeBlock; post_go
theorem only_ok (E : Env) (b f : Nat) (e : Bool) : Post (parseSphinxOnly E b f e) MovesOk := by
  unfold parseSphinxOnly
  refine Post.bind (Post.arguments _ _ _ _) fun _ _ => Post.ite (fun _ => Post.failed) fun _ => ?_
  post_go
theorem questionnaire_ok (E : Env) (b f : Nat) (e : Bool) : Post (parseQuestionnaire E b f e) MovesOk := by
  unfold parseQuestionnaire; post_go

theorem assignmentNodes_ok (E : Env) (b : Nat) :
    Post (assignmentNodes E b) (fun ns => ∀ n ∈ ns, inlineOutput n.kind = true) := by
  unfold assignmentNodes
  refine Post.bind (Post.textBlock _ _) fun r _ => ?_
  obtain ⟨lines, _⟩ := r
  refine Post.bind (Post.inlineNone _) fun nodes hn => ?_
  split
  · exact Post.failed
  · exact Post.bind (Post.advance _) fun _ _ => Post.pure hn

theorem pushChoice_ok (m : Match) : Post (pushChoice m) (fun _ => True) := by
  unfold pushChoice
  simp only
  split
  · exact Post.failed
  · refine Post.bind (Post.inlineNone _) fun nodes hn => ?_
    split
    · exact Post.failed
    · refine Post.bind (Post.pushFocus rfl) fun _ _ => Post.bind (Post.pushAll (plain_of_inline hn)) fun _ _ => ?_
      exact Post.bind Post.parent fun _ _ => Post.advance _

theorem choices_ok (E : Env) (r : Re) (b n : Nat) : Post (choices E r b n) (fun _ => True) := by
  induction n with
  | zero => exact Post.pure trivial
  | succ n ih =>
    unfold choices
    refine Post.bind Post.offset fun _ _ => ?_
    split
    · exact Post.pure trivial
    · split
      · exact Post.pure trivial
      · split
        · exact Post.pure trivial
        · exact Post.bind (pushChoice_ok _) fun _ _ => ih

theorem pushHint_ok (k : AplusQuestionnaireType) (l : Str) (m : Match) : Post (pushHint k l m) (fun _ => True) := by
  unfold pushHint
  simp only
  split
  · exact Post.failed
  · refine Post.bind (Post.inlineNone _) fun nodes hn => ?_
    split
    · exact Post.failed
    · refine Post.bind (Post.pushFocus rfl) fun _ _ => Post.bind (Post.pushAll (plain_of_inline hn)) fun _ _ => ?_
      exact Post.bind Post.parent fun _ _ => Post.advance _

theorem hints_ok (E : Env) (k : AplusQuestionnaireType) (r : Re) (b n : Nat) : Post (hints E k r b n) (fun _ => True) := by
  induction n with
  | zero => exact Post.pure trivial
  | succ n ih =>
    unfold hints
    refine Post.bind Post.offset fun _ _ => ?_
    split
    · exact Post.pure trivial
    · split
      · exact Post.pure trivial
      · split
        · exact Post.pure trivial
        · exact Post.bind (pushHint_ok _ _ _) fun _ _ => ih

theorem finishQuestion_ok (E : Env) (k : AplusQuestionnaireType) (r : Re) (b : Nat) :
    Post (finishQuestion E k r b) MovesOk := by
  unfold finishQuestion
  refine Post.bind (Post.skipEmpty _) fun _ _ => Post.bind (Post.pushFocus rfl) fun _ _ =>
    Post.bind (hints_ok _ _ _ _ _) fun _ _ => ?_
  post_go

theorem allChoices_ok (E : Env) (r : Re) (b : Nat) : Post (allChoices E r b) (fun _ => True) := by
  unfold allChoices
  refine Post.bind (Post.pushFocus rfl) fun _ _ => Post.bind (choices_ok _ _ _ _) fun _ _ =>
    Post.bind Post.doc fun _ _ => ?_
  split
  · exact Post.failed
  · exact Post.parent

theorem startNodes_ok (E : Env) (r : Re) (b : Nat) (t : Str) :
    Post (startNodes E r b t) (fun ns => ∀ n ∈ ns, inlineOutput n.kind = true) :=
  Post.ite (fun _ => Post.pure (by simp)) fun _ => assignmentNodes_ok E b

theorem optionalParagraph_ok (b : Nat) {nodes : List NodeType} (h : ∀ n ∈ nodes, inlineOutput n.kind = true) :
    Post (optionalParagraph b nodes) (fun _ => True) :=
  Post.ite (fun _ => Post.pure trivial) fun _ => pushParagraph_ok b h

theorem pickOne_ok (E : Env) (b f : Nat) (e : Bool) : Post (parsePickOne E b f e) MovesOk := by
  unfold parsePickOne
  refine Post.bind (Post.arguments _ _ _ _) fun _ _ => Post.bind (Post.required _) fun _ _ =>
    Post.bind (Post.required _) fun p _ => Owed.intro ?_
  refine Owed.still (tame_addPoints p) (still_options _ _) fun opts => ?_
  refine Owed.still (tame_addPoints p) (still_skipEmpty _) fun _ => ?_
  refine Owed.question rfl ?_
  refine Post.bind (Post.skipEmpty _) fun _ _ => Post.bind Post.offset fun _ _ => Post.bind (Post.required _) fun _ _ =>
    Post.bind (startNodes_ok _ _ _ _) fun nodes hn => Post.bind (Post.skipEmpty _) fun _ _ =>
    Post.bind (optionalParagraph_ok b hn) fun _ _ => Post.bind (Post.skipEmpty _) fun _ _ =>
    Post.bind (allChoices_ok _ _ _) fun _ _ => finishQuestion_ok _ _ _ _

theorem pickAny_ok (E : Env) (b f : Nat) (e : Bool) : Post (parsePickAny E b f e) MovesOk := by
  unfold parsePickAny
  refine Post.bind (Post.arguments _ _ _ _) fun _ _ => Post.bind (Post.required _) fun _ _ =>
    Post.bind (Post.required _) fun p _ => Owed.intro ?_
  refine Owed.still (tame_addPoints p) (still_options _ _) fun opts => ?_
  refine Owed.still (tame_addPoints p) (still_required _) fun _ => ?_
  refine Owed.question rfl ?_
  refine Post.bind (Post.skipEmpty _) fun _ _ => Post.bind Post.offset fun _ _ => Post.bind (Post.required _) fun _ _ =>
    Post.bind (startNodes_ok _ _ _ _) fun nodes hn =>
    Post.bind (optionalParagraph_ok b hn) fun _ _ => Post.bind (Post.skipEmpty _) fun _ _ =>
    Post.bind (allChoices_ok _ _ _) fun _ _ => finishQuestion_ok _ _ _ _

theorem freetext_ok (E : Env) (b f : Nat) (e : Bool) : Post (parseFreetext E b f e) MovesOk := by
  unfold parseFreetext
  refine Post.bind (Post.arguments _ _ _ _) fun _ _ => Post.bind (Post.required _) fun _ _ =>
    Post.bind (Post.required _) fun _ _ => Post.bind (Post.required _) fun p _ => Owed.intro ?_
  refine Owed.still (tame_addPoints p) (still_options _ _) fun opts => ?_
  refine Owed.question rfl ?_
  refine Post.bind (Post.skipEmpty _) fun _ _ => Post.bind (assignmentNodes_ok _ _) fun nodes hn =>
    Post.bind (pushParagraph_ok b hn) fun _ _ => Post.bind (Post.skipEmpty _) fun _ _ =>
    Post.bind Post.offset fun _ _ => Post.bind (Post.required _) fun _ _ => ?_
  split
  · exact Post.failed
  · refine Post.bind Post.doc fun _ _ => ?_
    split
    · exact Post.failed
    · exact Post.bind (Post.answer _) fun _ _ => Post.bind (Post.advance _) fun _ _ => finishQuestion_ok _ _ _ _

theorem submit_ok (E : Env) (b f : Nat) (e : Bool) : Post (parseSubmit E b f e) MovesOk := by
  unfold parseSubmit
  refine Post.bind (Post.arguments _ _ _ _) fun _ _ => Post.bind (Post.required _) fun _ _ => ?_
  post_go
theorem activeInput_ok (E : Env) (b f : Nat) (e : Bool) : Post (parseActiveInput E b f e) MovesOk := by
  unfold parseActiveInput; post_go
theorem activeOutput_ok (E : Env) (b f : Nat) (e : Bool) : Post (parseActiveOutput E b f e) MovesOk := by
  unfold parseActiveOutput; post_go
theorem pointOfInterest_ok (E : Env) (b f : Nat) (e : Bool) : Post (parsePointOfInterest E b f e) MovesOk := by
  unfold parsePointOfInterest; post_go
theorem unknown_ok (E : Env) (n : Str) (b f : Nat) (e : Bool) : Post (parseUnknownDirective E n b f e) MovesOk := by
  unfold parseUnknownDirective; post_go

theorem dispatch_ok {E : Env} (hE : NestOk E) (l : Str) (b f : Nat) (e : Bool) : Post (dispatchDirective E l b f e) MovesOk := by
  unfold dispatchDirective
  split
  · exact standardAdmonition_ok hE _ _ _ _
  · refine Post.ite (fun _ => genericAdmonition_ok _ _ _ _) fun _ => ?_
    refine Post.ite (fun _ => image_ok _ _ _ _) fun _ => ?_
    refine Post.ite (fun _ => figure_ok _ _ _ _) fun _ => ?_
    refine Post.ite (fun _ => code_ok _ _ _ _) fun _ => ?_
    refine Post.ite (fun _ => mathBlock_ok _ _ _ _) fun _ => ?_
    refine Post.ite (fun _ => listTable_ok hE _ _ _) fun _ => ?_
    refine Post.ite (fun _ => (Post.lift _).weaken fun _ h => by cases h) fun _ => ?_
    refine Post.ite (fun _ => class_ok hE _ _ _) fun _ => ?_
    refine Post.ite (fun _ => codeBlock_ok _ _ _ _) fun _ => ?_
    refine Post.ite (fun _ => only_ok _ _ _ _) fun _ => ?_
    refine Post.ite (fun _ => questionnaire_ok _ _ _ _) fun _ => ?_
    refine Post.ite (fun _ => submit_ok _ _ _ _) fun _ => ?_
    refine Post.ite (fun _ => activeInput_ok _ _ _ _) fun _ => ?_
    refine Post.ite (fun _ => activeOutput_ok _ _ _ _) fun _ => ?_
    refine Post.ite (fun _ => pointOfInterest_ok _ _ _ _) fun _ => ?_
    exact unknown_ok _ _ _ _ _

theorem bodyDirective_good {E : Env} (hE : NestOk E) : Good (bodyDirective E) := by
  intro m
  unfold bodyDirective
  exact Post.bind (currentLine_ok E _) fun _ _ => Post.bind Post.offset fun _ _ => atIndent_ok _ (dispatch_ok hE _ _ _ _)

theorem questionnaireText_good (E : Env) : Good (questionnaireText E) := by
  intro m
  unfold questionnaireText
  refine atIndentOrLeave_ok _ ?_
  refine Post.bind (Post.textBlock _ _) fun r _ => ?_
  obtain ⟨lines, _⟩ := r
  refine Post.bind (Post.inlineNone _) fun nodes hn => ?_
  split
  · exact (Post.lift _).weaken fun _ h => by cases h
  · exact Post.bind (pushParagraph_ok _ hn) fun _ _ => by post_end

theorem questionnaireDirective_good (E : Env) : Good (questionnaireDirective E) := by
  intro m
  unfold questionnaireDirective
  refine Post.bind (currentLine_ok E _) fun _ _ => Post.bind Post.offset fun _ _ => atIndentOrLeave_ok _ ?_
  unfold dispatchQuestion
  refine Post.ite (fun _ => pickOne_ok _ _ _ _) fun _ => ?_
  refine Post.ite (fun _ => pickAny_ok _ _ _ _) fun _ => ?_
  refine Post.ite (fun _ => freetext_ok _ _ _ _) fun _ => leave_ok

/-! ## Tables -/

theorem bodyRest_good {E : Env} (hE : NestOk E) : ∀ t ∈ bodyRest E, Good t.2 := by
  intro t ht
  simp only [bodyRest, List.mem_cons, List.not_mem_nil, or_false] at ht
  rcases ht with rfl | rfl | rfl | rfl | rfl | rfl | rfl | rfl | rfl | rfl
  · exact bodyBullet_good E
  · exact bodyEnumerator_good E
  · exact bodyFieldMarker_good E
  · exact bodyFootnote_good hE
  · exact bodyCitation_good hE
  · exact bodyHyperlinkTarget_good E
  · exact bodyDirective_good hE
  · exact bodyComment_good E
  · exact bodyLine_good E
  · exact bodyText_good E

theorem table_good {E : Env} (hE : NestOk E) {st : State} {ts : List (Re × Transition)} (h : tableOf E st = .ok ts) :
    ∀ t ∈ ts, Good t.2 := by
  have body : ∀ t ∈ bodyTable E, Good t.2 := by
    intro t ht
    simp only [bodyTable, List.mem_cons] at ht
    rcases ht with rfl | ht
    · exact emptyLine_good
    · exact bodyRest_good hE t ht
  unfold tableOf at h
  split at h <;> cases h <;> intro t ht
  · exact body t ht
  · exact body t ht
  · exact body t ht
  · exact body t ht
  · exact body t ht
  · exact body t ht
  · exact body t ht
  · simp only [List.mem_cons] at ht
    rcases ht with rfl | rfl | ht
    · exact emptyLine_good
    · exact attribution_good E
    · exact bodyRest_good hE t ht
  · simp only [List.mem_cons, List.not_mem_nil, or_false] at ht
    rcases ht with rfl | rfl
    · exact emptyLine_good
    · exact listBullet_good hE
  · simp only [definitionTable, List.mem_cons, List.not_mem_nil, or_false] at ht
    rcases ht with rfl | rfl | rfl | rfl | rfl | rfl | rfl | rfl | rfl | rfl | rfl
    · exact emptyLine_good
    all_goals first | exact backUp_good | exact definitionText_good E
  · simp only [List.mem_cons, List.not_mem_nil, or_false] at ht
    rcases ht with rfl | rfl
    · exact emptyLine_good
    · exact listEnumerator_good hE
  · simp only [List.mem_cons, List.not_mem_nil, or_false] at ht
    rcases ht with rfl | rfl
    · exact emptyLine_good
    · exact listFieldMarker_good hE
  · simp only [List.mem_cons, List.not_mem_nil, or_false] at ht
    rcases ht with rfl | rfl | rfl
    · exact emptyLine_good
    · exact literalBlock_good E _
    · exact literalBlock_good E _
  · simp only [List.mem_cons, List.not_mem_nil, or_false] at ht
    rcases ht with rfl | rfl
    · exact emptyLine_good
    · exact bodyBullet_good E
  · simp only [List.mem_cons] at ht
    rcases ht with rfl | rfl | ht
    · exact emptyLine_good
    · exact colBreak_good
    · exact bodyRest_good hE t ht
  · simp only [List.mem_cons, List.not_mem_nil, or_false] at ht
    rcases ht with rfl | rfl | rfl
    · exact emptyLine_good
    · exact questionnaireDirective_good E
    · exact questionnaireText_good E
  all_goals cases ht

end Rustla
