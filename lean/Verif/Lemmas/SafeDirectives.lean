import Verif.Lemmas.Sizes
/-! # Directives do not crash for unknown reasons -/
namespace Rustla

/-- A state whose document is full. -/
abbrev PS.Ready (s : PS) : Prop := s.doc.Full

/-- A state whose document is full and whose cursor is not behind the end of the source. -/
structure PS.Fit (E : Env) (s : PS) : Prop where
  full : s.doc.Full
  bound : s.cursor.offset ≤ E.src.length

theorem PS.Fit.ready {E : Env} {s : PS} (h : s.Fit E) : s.Ready := h.full

theorem PS.Fit.docOnly {E : Env} {s s' : PS} (h : s.Fit E) (h' : DocOnly s s') : s'.Fit E :=
  ⟨h'.2, by rw [h'.1]; exact h.bound⟩

/-- What holds after a transition: the document is full, and only a bounded number of states is pushed. -/
def MoveOk (k : Nat) (v : Moves) (s : PS) : Prop := s.doc.Full ∧ ∀ l, v.1 = .push l → l.length ≤ k

theorem moveOk_pop {k : Nat} {s : PS} (h : s.Ready) (a : LineAdvance) : MoveOk k (.pop, a) s :=
  ⟨h, fun _ e => (by cases e)⟩
theorem moveOk_neither {k : Nat} {s : PS} (h : s.Ready) (a : LineAdvance) : MoveOk k (.neither, a) s :=
  ⟨h, fun _ e => (by cases e)⟩
theorem moveOk_push {k : Nat} {s : PS} (h : s.Ready) {l : List State} (hl : l.length ≤ k) (a : LineAdvance) :
    MoveOk k (.push l, a) s := ⟨h, fun _ e => by cases e; exact hl⟩

section
variable {α β : Type} {E : Env} {s : PS} {f : α → P β} {Q : β → PS → Prop}

theorem Fit.docRule {x : P α} (hs : s.Fit E) (hx : OutOk (x s) (fun _ s' => DocOnly s s'))
    (hf : ∀ a s', s'.Fit E → OutOk (f a s') Q) : OutOk ((x >>= f) s) Q :=
  OutOk.bind hx fun a s' h => hf a s' (hs.docOnly h)

theorem Ready.docRule {x : P α} (hx : OutOk (x s) (fun _ s' => DocOnly s s'))
    (hf : ∀ a s', s'.Ready → OutOk (f a s') Q) : OutOk ((x >>= f) s) Q :=
  OutOk.bind hx fun a s' h => hf a s' h.2

theorem Ready.rule {x : P α} (hx : OutOk (x s) (fun _ s' => s'.Ready))
    (hf : ∀ a s', s'.Ready → OutOk (f a s') Q) : OutOk ((x >>= f) s) Q :=
  OutOk.bind hx fun a s' h => hf a s' h

theorem Fit.rule {x : P α} (hx : OutOk (x s) (fun _ s' => s'.Fit E))
    (hf : ∀ a s', s'.Fit E → OutOk (f a s') Q) : OutOk ((x >>= f) s) Q :=
  OutOk.bind hx fun a s' h => hf a s' h

theorem sameRule {x : P α} (hx : OutOk (x s) (fun _ s' => s' = s))
    (hf : ∀ a, OutOk (f a s) Q) : OutOk ((x >>= f) s) Q :=
  OutOk.bind hx fun a s' h => by subst h; exact hf a

theorem requiredRule {x : Option α} (hf : ∀ a, x = some a → OutOk (f a s) Q) : OutOk ((P.required x >>= f) s) Q :=
  OutOk.bind (OutOk.required x) fun a s' h => by obtain ⟨h1, rfl⟩ := h; exact hf a h1

theorem docValueRule {f : DocTree → P β} (hf : OutOk (f s.doc s) Q) : OutOk ((P.doc >>= f) s) Q := hf
theorem offsetRule {f : Nat → P β} (hf : OutOk (f s.cursor.offset s) Q) : OutOk ((P.offset >>= f) s) Q := hf
theorem cursorRule {f : LineCursor → P β} (hf : OutOk (f s.cursor s) Q) : OutOk ((P.cursor >>= f) s) Q := hf
theorem levelRule {f : Nat → P β} (hf : OutOk (f s.sectionLevel s) Q) : OutOk ((P.level >>= f) s) Q := hf
theorem liftRule {r : Run α} {R : α → Prop} (hr : RunOk r R) (hf : ∀ a, R a → OutOk (f a s) Q) :
    OutOk ((P.lift r >>= f) s) Q := OutOk.bind (OutOk.lift hr) fun a s' h => by obtain ⟨h1, rfl⟩ := h; exact hf a h1

end

theorem OutOk.setLevel' {s : PS} (hs : s.Ready) (n : Nat) : OutOk (P.setLevel n s) (fun _ s' => DocOnly s s') := ⟨rfl, hs⟩

theorem OutOk.optionsFit {E : Env} {s : PS} (hs : s.Fit E) (b : Nat) : OutOk (P.options E b s) (fun _ s' => s'.Fit E) :=
  ⟨hs.full, opts_bound _ _ _ hs.bound⟩

theorem OutOk.skipFit {E : Env} {s : PS} (hs : s.Fit E) : OutOk (P.skipEmpty E.src s) (fun _ s' => s'.Fit E) :=
  OutOk.skipEmpty.weaken fun _ _ h => ⟨by rw [h.1]; exact hs.full, h.2.2 hs.bound⟩

theorem OutOk.skipReady {E : Env} {s : PS} (hs : s.Ready) : OutOk (P.skipEmpty E.src s) (fun _ s' => s'.Ready) :=
  OutOk.skipEmpty.weaken fun _ _ h => by unfold PS.Ready; rw [h.1]; exact hs

theorem OutOk.optionsReady {E : Env} {s : PS} (hs : s.Ready) (b : Nat) : OutOk (P.options E b s) (fun _ s' => s'.Ready) := hs

theorem OutOk.advanceReady {s : PS} (hs : s.Ready) (n : Nat) : OutOk (P.advance n s) (fun _ s' => s'.Ready) := hs

theorem OutOk.inlineNoneReady {s : PS} (hs : s.Ready) (t : Str) : OutOk (P.inlineNone t s) (fun _ s' => s'.Ready) :=
  (OutOk.inlineNone t).weaken fun _ _ h => by unfold PS.Ready; rw [h]; exact hs

theorem OutOk.inlineDocReady {s : PS} (hs : s.Ready) (t : Str) : OutOk (P.inlineDoc t s) (fun _ s' => s'.Ready) :=
  OutOk.inlineDoc hs t

/-- The cursor is at a line. -/
structure PS.At (E : Env) (line : Str) (s : PS) : Prop where
  full : s.doc.Full
  line : E.src[s.cursor.offset]? = some line

theorem PS.At.fit {E : Env} {line : Str} {s : PS} (h : s.At E line) : s.Fit E :=
  ⟨h.full, Nat.le_of_lt (List.getElem?_eq_some_iff.mp h.line).1⟩

theorem PS.At.ready {E : Env} {line : Str} {s : PS} (h : s.At E line) : s.Ready := h.full

theorem OutOk.argumentsFit {E : Env} {line : Str} {s : PS} (hs : s.At E line) (b f : Nat) (e : Bool) :
    OutOk (P.arguments E b f e s) (fun _ s' => s'.Fit E) :=
  ⟨hs.full, args_bound _ _ _ _ _ (List.getElem?_eq_some_iff.mp hs.line).1⟩

/-- One step of a transition, in a state that fits. -/
syntax "safe_step" : tactic
set_option hygiene false in
macro_rules
  | `(tactic| safe_step) => `(tactic| first
    | (with_reducible refine requiredRule ?_; intro a ha)
    | with_reducible refine docValueRule ?_
    | with_reducible refine offsetRule ?_
    | with_reducible refine cursorRule ?_
    | with_reducible refine levelRule ?_
    | (with_reducible refine Fit.docRule hs (OutOk.push hs.full _) ?_; intro _ s hs)
    | (with_reducible refine Ready.docRule (OutOk.push hs _) ?_; intro _ s hs)
    | (with_reducible refine Fit.docRule hs (OutOk.pushFocus hs.full rfl) ?_; intro _ s hs)
    | (with_reducible refine Ready.docRule (OutOk.pushFocus hs rfl) ?_; intro _ s hs)
    | (with_reducible refine Fit.docRule hs (OutOk.pushAll hs.full _) ?_; intro _ s hs)
    | (with_reducible refine Ready.docRule (OutOk.pushAll hs _) ?_; intro _ s hs)
    | (with_reducible refine Fit.docRule hs (OutOk.pushNode hs.full _) ?_; intro _ s hs)
    | (with_reducible refine Ready.docRule (OutOk.pushNode hs _) ?_; intro _ s hs)
    | (with_reducible refine Fit.docRule hs (OutOk.parent hs.full.sound) ?_; intro _ s hs)
    | (with_reducible refine Ready.docRule (OutOk.parent (DocTree.Full.sound hs)) ?_; intro _ s hs)
    | (with_reducible refine Fit.docRule hs (OutOk.setLevel' hs.full _) ?_; intro _ s hs)
    | (with_reducible refine Ready.docRule (OutOk.setLevel' hs _) ?_; intro _ s hs)
    | (with_reducible refine Fit.rule (OutOk.optionsFit hs _) ?_; intro opts s hs)
    | (with_reducible refine Ready.rule (OutOk.optionsReady hs _) ?_; intro opts s hs)
    | (with_reducible refine Fit.rule (OutOk.skipFit hs) ?_; intro _ s hs)
    | (with_reducible refine Ready.rule (OutOk.skipReady hs) ?_; intro _ s hs)
    | (with_reducible refine Fit.rule (OutOk.argumentsFit hs _ _ _) ?_; intro args s hs)
    | (with_reducible refine Ready.rule (OutOk.advanceReady hs _) ?_; intro _ s hs)
    | (with_reducible refine Ready.rule (OutOk.inlineNoneReady hs _) ?_; intro nodes s hs)
    | (with_reducible refine Ready.rule (OutOk.inlineDocReady hs _) ?_; intro nodes s hs)
    | (with_reducible refine OutOk.failed))

/-- The end of a transition. -/
syntax "safe_end" : tactic
set_option hygiene false in
macro_rules
  | `(tactic| safe_end) => `(tactic| first
    | exact OutOk.pure (moveOk_pop hs.full _)
    | exact OutOk.pure (moveOk_pop hs _)
    | exact OutOk.pure (moveOk_neither hs.full _)
    | exact OutOk.pure (moveOk_neither hs _)
    | exact OutOk.pure (moveOk_push hs.full hk _)
    | exact OutOk.pure (moveOk_push hs hk _))

variable {E : Env} {k : Nat} {line : Str}

theorem parseGenericAdmonition_safe (hk : 1 ≤ k) {s : PS} (hs : s.At E line) (body first : Nat) (empty : Bool) :
    OutOk (parseGenericAdmonition E body first empty s) (MoveOk k) := by
  unfold parseGenericAdmonition
  repeat safe_step
  safe_end

theorem parseImage_safe (hk : 1 ≤ k) {s : PS} (hs : s.At E line) (body first : Nat) (empty : Bool) :
    OutOk (parseImage E body first empty s) (MoveOk k) := by
  unfold parseImage
  repeat safe_step
  safe_end

theorem parseFigure_safe (hk : 1 ≤ k) {s : PS} (hs : s.At E line) (body first : Nat) (empty : Bool) :
    OutOk (parseFigure E body first empty s) (MoveOk k) := by
  unfold parseFigure
  repeat safe_step
  safe_end

theorem parsePointOfInterest_safe (hk : 1 ≤ k) {s : PS} (hs : s.At E line) (body first : Nat) (empty : Bool) :
    OutOk (parsePointOfInterest E body first empty s) (MoveOk k) := by
  unfold parsePointOfInterest
  repeat safe_step
  safe_end

theorem parseActiveInput_safe (hk : 1 ≤ k) {s : PS} (hs : s.At E line) (body first : Nat) (empty : Bool) :
    OutOk (parseActiveInput E body first empty s) (MoveOk k) := by
  unfold parseActiveInput
  repeat safe_step
  safe_end

theorem parseActiveOutput_safe (hk : 1 ≤ k) {s : PS} (hs : s.At E line) (body first : Nat) (empty : Bool) :
    OutOk (parseActiveOutput E body first empty s) (MoveOk k) := by
  unfold parseActiveOutput
  repeat safe_step
  safe_end

theorem parseSubmit_safe (hk : 1 ≤ k) {s : PS} (hs : s.At E line) (body first : Nat) (empty : Bool) :
    OutOk (parseSubmit E body first empty s) (MoveOk k) := by
  unfold parseSubmit
  repeat safe_step
  safe_end

theorem parseUnknownDirective_safe (hk : 1 ≤ k) {s : PS} (hs : s.At E line) (name : Str) (body first : Nat) (empty : Bool) :
    OutOk (parseUnknownDirective E name body first empty s) (MoveOk k) := by
  unfold parseUnknownDirective
  repeat safe_step
  safe_end

theorem parseQuestionnaire_safe (hk : 1 ≤ k) {s : PS} (hs : s.At E line) (body first : Nat) (empty : Bool) :
    OutOk (parseQuestionnaire E body first empty s) (MoveOk k) := by
  unfold parseQuestionnaire
  safe_step
  safe_step
  dsimp only
  repeat safe_step
  safe_end

theorem parseSphinxOnly_safe (hk : 1 ≤ k) {s : PS} (hs : s.At E line) (body first : Nat) (empty : Bool) :
    OutOk (parseSphinxOnly E body first empty s) (MoveOk k) := by
  unfold parseSphinxOnly
  safe_step
  refine OutOk.ite (fun _ => OutOk.failed) fun _ => ?_
  repeat safe_step
  safe_end

/-- An indented block in a state that fits. -/
theorem blockRule {β : Type} {f : List Str × Nat → P β} {Q : β → PS → Prop} {s : PS} (hs : s.Fit E) {ub : Bool} {b : Nat}
    {fi : Option Nat} {fo : Bool} (hf : ∀ lines n, BlockAt E s (fi.getD b) lines → OutOk (f (lines, n) s) Q) :
    OutOk ((P.indentedBlock E ub (some b) fi fo >>= f) s) Q :=
  OutOk.bind (OutOk.indentedBlock hs.bound ub b fi fo) fun a s' h => by
    obtain ⟨rfl, h2⟩ := h; exact hf a.1 a.2 h2

theorem parseCode_safe {s : PS} (hs : s.At E line) (body first : Nat) (empty : Bool) :
    OutOk (parseCode E body first empty s) (MoveOk k) := by
  unfold parseCode
  safe_step
  safe_step
  refine blockRule hs fun lines n _ => ?_
  repeat safe_step
  safe_end

theorem parseSphinxCodeBlock_safe {s : PS} (hs : s.At E line) (body first : Nat) (empty : Bool) :
    OutOk (parseSphinxCodeBlock E body first empty s) (MoveOk k) := by
  unfold parseSphinxCodeBlock
  safe_step
  safe_step
  refine blockRule hs fun lines n _ => ?_
  repeat safe_step
  safe_end

theorem parseMathBlock_safe {s : PS} (hs : s.At E line) (body first : Nat) (empty : Bool) :
    OutOk (parseMathBlock E body first empty s) (MoveOk k) := by
  unfold parseMathBlock
  safe_step
  safe_step
  dsimp only
  cases args with
  | some math =>
    dsimp only
    safe_step
    safe_end
  | none =>
    dsimp only
    refine blockRule hs fun lines n _ => ?_
    dsimp only
    refine OutOk.ite (fun _ => OutOk.failed) fun _ => ?_
    repeat safe_step
    safe_end

/-! ## Questions -/

theorem assignmentNodes_safe {s : PS} (hs : s.Fit E) (body : Nat) :
    OutOk (assignmentNodes E body s) (fun _ s' => s'.Ready) := by
  unfold assignmentNodes
  refine sameRule (OutOk.textBlock hs.bound _) fun a => ?_
  obtain ⟨lines, n⟩ := a
  dsimp only
  refine Ready.rule (OutOk.inlineNoneReady hs.full _) ?_
  intro nodes s hs
  refine OutOk.ite (fun _ => OutOk.failed) fun _ => ?_
  safe_step
  exact hs

/-- Filling a node without nodes of its own kind inside. -/
theorem leafRule {β : Type} {f : Unit → P β} {Q : β → PS → Prop} {data : NodeType} {nodes : List NodeType} {s : PS}
    (hs : s.Ready) (hr : ∀ x, ∃ b, childIsAllowed data.kind x = .ok b) (hf : ∀ s', s'.Ready → OutOk (f () s') Q) :
    OutOk ((P.pushFocus data >>= fun _ => P.pushAll nodes >>= fun _ => P.parent >>= f) s) Q := by
  refine OutOk.bind (OutOk.pushFocusInner hs hr) fun _ s1 h1 => ?_
  refine OutOk.bind (OutOk.pushAllInner h1.2 nodes) fun _ s2 h2 => ?_
  exact OutOk.bind (OutOk.parent (h2.2.sound h1.2)) fun _ s3 h3 => hf s3 h3.2

theorem pushParagraph_safe {s : PS} (hs : s.Ready) (indent : Nat) (nodes : List NodeType) :
    OutOk (pushParagraph indent nodes s) (fun _ s' => DocOnly s s') := by
  unfold pushParagraph
  refine OutOk.bind (OutOk.pushFocus hs rfl) fun _ s1 h1 => ?_
  refine OutOk.bind (OutOk.pushAll h1.2 nodes) fun _ s2 h2 => ?_
  refine (OutOk.parent h2.2.sound).weaken fun _ s3 h3 => ?_
  exact ⟨h3.1.trans (h2.1.trans h1.1), h3.2⟩

theorem optionalParagraph_safe {s : PS} (hs : s.Ready) (indent : Nat) (nodes : List NodeType) :
    OutOk (optionalParagraph indent nodes s) (fun _ s' => s'.Ready) := by
  unfold optionalParagraph
  refine OutOk.ite (fun _ => hs) fun _ => ?_
  exact (pushParagraph_safe hs indent nodes).weaken fun _ _ h => h.2

theorem startNodes_safe {s : PS} (hs : s.Fit E) (choice : Re) (body : Nat) (start : Str) :
    OutOk (startNodes E choice body start s) (fun _ s' => s'.Ready) := by
  unfold startNodes
  exact OutOk.ite (fun _ => hs.full) fun _ => assignmentNodes_safe hs body

theorem pushChoice_safe {s : PS} (hs : s.Ready) (m : Match) : OutOk (pushChoice m s) (fun _ s' => s'.Ready) := by
  unfold pushChoice
  refine OutOk.ite (fun _ => OutOk.failed) fun _ => ?_
  safe_step
  refine OutOk.ite (fun _ => OutOk.failed) fun _ => ?_
  refine leafRule hs (fun x => ⟨_, rfl⟩) fun s hs => ?_
  exact OutOk.advanceReady hs 1

theorem pushHint_safe {s : PS} (hs : s.Ready) (kind : AplusQuestionnaireType) (label : Str) (m : Match) :
    OutOk (pushHint kind label m s) (fun _ s' => s'.Ready) := by
  unfold pushHint
  refine OutOk.ite (fun _ => OutOk.failed) fun _ => ?_
  safe_step
  refine OutOk.ite (fun _ => OutOk.failed) fun _ => ?_
  refine leafRule hs (fun x => ⟨_, rfl⟩) fun s hs => ?_
  exact OutOk.advanceReady hs 1

theorem choices_safe (choice : Re) (body fuel : Nat) {s : PS} (hs : s.Ready) :
    OutOk (choices E choice body fuel s) (fun _ s' => s'.Ready) := by
  induction fuel generalizing s with
  | zero => exact hs
  | succ n ih =>
    unfold choices
    refine offsetRule ?_
    cases E.src[s.cursor.offset]? with
    | none => exact hs
    | some l =>
      dsimp only
      refine OutOk.ite (fun _ => hs) fun _ => ?_
      cases choice.captures l with
      | none => exact hs
      | some m =>
        dsimp only
        exact OutOk.bind (pushChoice_safe hs m) fun _ s' h => ih h

theorem hints_safe (kind : AplusQuestionnaireType) (hint : Re) (body fuel : Nat) {s : PS} (hs : s.Ready) :
    OutOk (hints E kind hint body fuel s) (fun _ s' => s'.Ready) := by
  induction fuel generalizing s with
  | zero => exact hs
  | succ n ih =>
    unfold hints
    refine offsetRule ?_
    cases E.src[s.cursor.offset]? with
    | none => exact hs
    | some l =>
      dsimp only
      refine OutOk.ite (fun _ => hs) fun _ => ?_
      cases hint.captures l with
      | none => exact hs
      | some m =>
        dsimp only
        exact OutOk.bind (pushHint_safe hs kind _ m) fun _ s' h => ih h

theorem finishQuestion_safe (kind : AplusQuestionnaireType) (hint : Re) (body : Nat) {s : PS} (hs : s.Ready) :
    OutOk (finishQuestion E kind hint body s) (MoveOk k) := by
  unfold finishQuestion
  safe_step
  safe_step
  refine OutOk.bind (hints_safe kind hint body _ hs) fun _ s hs => ?_
  repeat safe_step
  safe_end

theorem allChoices_safe (choice : Re) (body : Nat) {s : PS} (hs : s.Ready) :
    OutOk (allChoices E choice body s) (fun _ s' => s'.Ready) := by
  unfold allChoices
  safe_step
  refine OutOk.bind (choices_safe choice body _ hs) fun _ s hs => ?_
  safe_step
  refine OutOk.ite (fun _ => OutOk.failed) fun _ => ?_
  exact (OutOk.parent (DocTree.Full.sound hs)).weaken fun _ _ h => h.2

theorem fit_of_line {s : PS} (hs : s.Ready) {l : Str} (h : E.src[s.cursor.offset]? = some l) : s.Fit E :=
  ⟨hs, Nat.le_of_lt (List.getElem?_eq_some_iff.mp h).1⟩

theorem parsePickOne_safe {s : PS} (hs : s.At E line) (body first : Nat) (empty : Bool) :
    OutOk (parsePickOne E body first empty s) (MoveOk k) := by
  unfold parsePickOne
  safe_step
  safe_step
  safe_step
  refine Fit.docRule hs (OutOk.mapData hs.full (addPoints_indent _)) ?_
  intro _ s hs
  repeat safe_step
  refine OutOk.bind (startNodes_safe hs _ _ _) fun nodes s hs => ?_
  safe_step
  refine OutOk.bind (optionalParagraph_safe hs _ _) fun _ s hs => ?_
  safe_step
  refine OutOk.bind (allChoices_safe _ _ hs) fun _ s hs => ?_
  exact finishQuestion_safe _ _ _ hs

theorem parsePickAny_safe {s : PS} (hs : s.At E line) (body first : Nat) (empty : Bool) :
    OutOk (parsePickAny E body first empty s) (MoveOk k) := by
  unfold parsePickAny
  safe_step
  safe_step
  safe_step
  refine Fit.docRule hs (OutOk.mapData hs.full (addPoints_indent _)) ?_
  intro _ s hs
  repeat safe_step
  refine OutOk.bind (startNodes_safe hs _ _ _) fun nodes s hs => ?_
  refine OutOk.bind (optionalParagraph_safe hs _ _) fun _ s hs => ?_
  safe_step
  refine OutOk.bind (allChoices_safe _ _ hs) fun _ s hs => ?_
  exact finishQuestion_safe _ _ _ hs

theorem parseFreetext_safe {s : PS} (hs : s.At E line) (body first : Nat) (empty : Bool) :
    OutOk (parseFreetext E body first empty s) (MoveOk k) := by
  unfold parseFreetext
  safe_step
  safe_step
  safe_step
  safe_step
  refine Fit.docRule hs (OutOk.mapData hs.full (addPoints_indent _)) ?_
  intro _ s hs
  repeat safe_step
  refine OutOk.bind (assignmentNodes_safe hs _) fun nodes s hs => ?_
  refine OutOk.bind (pushParagraph_safe hs _ _) fun _ s h => ?_
  replace hs : s.Ready := h.2
  safe_step
  safe_step
  safe_step
  refine OutOk.ite (fun _ => OutOk.failed) fun _ => ?_
  safe_step
  refine OutOk.ite (fun _ => OutOk.failed) fun _ => ?_
  refine Ready.docRule (OutOk.mapData hs (addAnswer_indent _)) ?_
  intro _ s hs
  safe_step
  exact finishQuestion_safe _ _ _ hs

end Rustla
