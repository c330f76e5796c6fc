import Verif.Lemmas.SafeDirectives
/-! # Directives whose content is parsed by a nested parser -/
namespace Rustla

variable {E : Env} {k : Nat} {line : Str}

/-- What a directive knows about its marker line. -/
structure Marker (E : Env) (line : Str) (offset body first : Nat) (empty : Bool) : Prop where
  behind : empty = isBlank (line.drop first)
  pos : 1 ≤ first
  field : reFieldMarker.captures line = none
  blank : isBlank line = false
  body : body = (indentOnSubsequentLines E.src offset).getD first

theorem Marker.nonempty {offset body first : Nat} {empty : Bool} (h : Marker E line offset body first empty) : line ≠ [] := by
  rintro rfl
  have := h.blank
  cases this

/-- The arguments of a directive have been read away, or the cursor has not moved. -/
theorem scanned {s : PS} (hs : s.At E line) {body first : Nat} {empty : Bool}
    (hm : Marker E line s.cursor.offset body first empty) {v : Option (List Str)} {c : LineCursor}
    (h : (v, c) = scanDirectiveArguments E.src s.cursor body first empty) :
    (textSize (v.getD []) + textSize (E.src.drop c.offset) < textSize E.src) ∨ (v = none ∧ c = s.cursor) := by
  unfold scanDirectiveArguments LineCursor.relativeOffset at h
  have hbehind := textSize_behind hs.line (Nat.lt_succ_self s.cursor.offset)
  dsimp only at h
  have hwrap : ∀ ls : List Str, Option.getD (if ls.isEmpty = true then none else some ls) [] = ls := by
    intro ls; cases ls <;> rfl
  split at h
  · left
    injection h with h1 h2
    subst h1 h2
    rw [hwrap]
    have := (argumentLines_size body (E.src.drop (s.cursor.offset + 1))).1
    rw [List.drop_drop] at this
    simp only [LineCursor.incrementBy]
    have hb : textSize (E.src.drop (s.cursor.offset + 1)) + line.length + 1 ≤ textSize E.src := hbehind
    omega
  · rw [drop_eq_cons hs.line] at h
    dsimp only at h
    split at h
    · right; injection h with h1 h2; exact ⟨h1, h2⟩
    · left
      injection h with h1 h2
      subst h1 h2
      rw [hwrap, textSize_cons]
      have := (argumentLines_size body (E.src.drop (s.cursor.offset + 1))).1
      rw [List.drop_drop] at this
      simp only [LineCursor.incrementBy, List.length_cons, List.length_drop]
      have hb : textSize (E.src.drop (s.cursor.offset + 1)) + line.length + 1 ≤ textSize E.src := hbehind
      have hlen : 0 < line.length := List.length_pos_iff.mpr hm.nonempty
      have hf := hm.pos
      rw [show s.cursor.offset + 1 + (argumentLines body (E.src.drop (s.cursor.offset + 1))).length =
        s.cursor.offset + ((argumentLines body (E.src.drop (s.cursor.offset + 1))).length + 1) by omega] at this
      omega

/-- There are no options at the marker line. -/
theorem no_options {s : PS} (hl : E.src[s.cursor.offset]? = some line) (hf : reFieldMarker.captures line = none)
    (hb : isBlank line = false) (body : Nat) : scanDirectiveOptions E.src s.cursor body = (none, s.cursor) := by
  unfold scanDirectiveOptions LineCursor.relativeOffset
  rw [drop_eq_cons hl]
  simp [optionLines, hb, hf]

/-- The content of a directive is smaller than the source. -/
theorem content_smaller {s s' : PS} (hs : s.At E line) {body first : Nat} {empty : Bool}
    (hm : Marker E line s.cursor.offset body first empty) {v : Option (List Str)} {c : LineCursor}
    (h : (v, c) = scanDirectiveArguments E.src s.cursor body first empty) (hc : c.offset ≤ s'.cursor.offset)
    (hsame : c = s.cursor → s'.cursor.offset = s.cursor.offset) {lines : List Str} (hb : BlockAt E s' body lines) :
    textSize (v.getD [] ++ lines) < textSize E.src := by
  rw [textSize_append]
  rcases scanned hs hm h with h1 | ⟨rfl, rfl⟩
  · have := hb.le
    have := textSize_drop_le hc E.src
    omega
  · have hoff := hsame rfl
    simp only [Option.getD_none, textSize_nil, Nat.zero_add]
    rcases Nat.eq_zero_or_pos body with hz | hz
    · have hi : indentOnSubsequentLines E.src s'.cursor.offset = some 0 := by
        have hbody := hm.body
        rw [hoff]
        cases hi : indentOnSubsequentLines E.src s.cursor.offset with
        | none => rw [hi] at hbody; have := hm.pos; simp at hbody; omega
        | some i => rw [hi] at hbody; simp at hbody; rw [← hbody, hz]
      have := hb.unindented hi
      have := textSize_drop_le (Nat.zero_le s'.cursor.offset) E.src
      simp only [List.drop_zero] at this
      omega
    · refine hb.smaller hz ?_
      intro l hl
      rw [hoff, hs.line] at hl
      cases hl
      exact hm.nonempty

theorem parseStandardAdmonition_safe (hE : NestSafe E.nested (textSize E.src) k) {s : PS} (hs : s.At E line)
    (variant : AdmonitionType) {body first : Nat} {empty : Bool} (hm : Marker E line s.cursor.offset body first empty) :
    OutOk (parseStandardAdmonition E variant body first empty s) (MoveOk k) := by
  unfold parseStandardAdmonition
  refine OutOk.bind (OutOk.arguments body first empty) fun args s1 h1 => ?_
  obtain ⟨d1, h1⟩ := h1
  have b1 : s1.cursor.offset ≤ E.src.length := by
    have := args_bound E.src s.cursor body first empty (List.getElem?_eq_some_iff.mp hs.line).1
    rw [← h1] at this; exact this
  refine OutOk.bind (OutOk.options body) fun opts s2 h2 => ?_
  obtain ⟨d2, h2⟩ := h2
  have b2 : s2.cursor.offset ≤ E.src.length := by
    have := opts_bound E.src s1.cursor body b1
    rw [← h2] at this; exact this
  have f2 : s2.doc.Full := by rw [d2, d1]; exact hs.full
  refine blockRule (s := s2) ⟨f2, b2⟩ fun lines n hb => ?_
  dsimp only
  have hc : s1.cursor.offset ≤ s2.cursor.offset := by
    have := (opts_cursor E.src s1.cursor body).1
    rw [← h2] at this; exact this
  have hsmall := content_smaller (s' := s2) hs hm h1 hc (by
    intro e
    have := no_options (s := s1) (by rw [e]; exact hs.line) hm.field hm.blank body
    rw [this] at h2
    injection h2 with _ h2
    rw [h2, e]) hb
  refine OutOk.bind (OutOk.pushFocus f2 rfl) fun _ s3 h3 => ?_
  refine OutOk.bind (OutOk.nest hE h3.2 hsmall body rfl) fun stack s4 h4 => ?_
  exact OutOk.pure (moveOk_push h4.1.2 h4.2 _)

theorem parseClass_safe (hE : NestSafe E.nested (textSize E.src) k) {s : PS} (hs : s.At E line)
    {body first : Nat} {empty : Bool} (hm : Marker E line s.cursor.offset body first empty) :
    OutOk (parseClass E body first empty s) (MoveOk k) := by
  unfold parseClass
  refine OutOk.bind (OutOk.arguments body first empty) fun args s1 h1 => ?_
  obtain ⟨d1, h1⟩ := h1
  have b1 : s1.cursor.offset ≤ E.src.length := by
    have := args_bound E.src s.cursor body first empty (List.getElem?_eq_some_iff.mp hs.line).1
    rw [← h1] at this; exact this
  refine requiredRule fun a ha => ?_
  have f1 : s1.doc.Full := by rw [d1]; exact hs.full
  refine OutOk.bind (OutOk.pushFocus f1 rfl) fun _ s2 h2 => ?_
  refine blockRule (s := s2) ⟨h2.2, by rw [h2.1]; exact b1⟩ fun lines n hb => ?_
  dsimp only
  have hsmall := content_smaller (s' := s2) hs hm h1 (by rw [h2.1]) (by intro e; rw [h2.1, e]) hb
  rw [textSize_append] at hsmall
  refine OutOk.bind (OutOk.nest hE h2.2 (by omega) body rfl) fun stack s4 h4 => ?_
  exact OutOk.pure (moveOk_push h4.1.2 h4.2 _)

theorem leaveNested_safe (n : Nat) {s : PS} (hs : s.Ready) : OutOk (leaveNested n s) (fun _ s' => s'.Ready) := by
  induction n generalizing s with
  | zero => exact hs
  | succ n ih =>
    unfold leaveNested
    exact OutOk.bind (OutOk.parent (DocTree.Full.sound hs)) fun _ s' h => ih h.2

theorem tableWidths_ok (w : Option Str) : RunOk (tableWidths w) (fun _ => True) := by
  unfold tableWidths
  split
  · trivial
  · split
    · trivial
    · split
      · show _ ∈ crashReasons; simp [crashReasons]
      · trivial
      · trivial

theorem parseListTable_safe (hk : 1 ≤ k) (hE : NestSafe E.nested (textSize E.src) k) {s : PS} (hs : s.At E line)
    {body first : Nat} {empty : Bool} (hm : Marker E line s.cursor.offset body first empty) :
    OutOk (parseListTable E body first empty s) (MoveOk k) := by
  unfold parseListTable
  refine OutOk.bind (OutOk.arguments body first empty) fun args s1 h1 => ?_
  obtain ⟨d1, h1⟩ := h1
  have b1 : s1.cursor.offset ≤ E.src.length := by
    have := args_bound E.src s.cursor body first empty (List.getElem?_eq_some_iff.mp hs.line).1
    rw [← h1] at this; exact this
  refine OutOk.bind (OutOk.options body) fun opts s2 h2 => ?_
  obtain ⟨d2, h2⟩ := h2
  have b2 : s2.cursor.offset ≤ E.src.length := by
    have := opts_bound E.src s1.cursor body b1
    rw [← h2] at this; exact this
  have f2 : s2.doc.Full := by rw [d2, d1]; exact hs.full
  have hc : s1.cursor.offset ≤ s2.cursor.offset := by
    have := (opts_cursor E.src s1.cursor body).1
    rw [← h2] at this; exact this
  refine liftRule (tableWidths_ok _) fun widths _ => ?_
  dsimp only
  have hskip : OutOk (P.skipEmpty E.src s2) (fun _ s' => s'.doc = s2.doc ∧
      s'.cursor = (skipEmptyLines E.src s2.cursor).1) := ⟨rfl, rfl⟩
  refine OutOk.bind hskip fun _ s3 h3 => ?_
  have f3 : s3.doc.Full := by rw [h3.1]; exact f2
  have hc3 : s2.cursor.offset ≤ s3.cursor.offset := by rw [h3.2]; exact Nat.le_add_right ..
  have b3 : s3.cursor.offset ≤ E.src.length := by
    rw [h3.2]
    have := countBlank_le (E.src.drop s2.cursor.offset)
    simp only [List.length_drop] at this
    show s2.cursor.offset + countBlank (E.src.drop s2.cursor.offset) ≤ _
    omega
  refine OutOk.bind (OutOk.pushFocus f3 rfl) fun _ s4 h4 => ?_
  refine blockRule (s := s4) ⟨h4.2, by rw [h4.1]; exact b3⟩ fun lines n hb => ?_
  dsimp only
  have hsmall := content_smaller (s' := s4) hs hm h1 (by rw [h4.1]; omega) (by
    intro e
    have := no_options (s := s1) (by rw [e]; exact hs.line) hm.field hm.blank body
    rw [this] at h2
    injection h2 with _ h2
    rw [h4.1, h3.2, h2, e]
    show s.cursor.offset + countBlank (E.src.drop s.cursor.offset) = _
    rw [drop_eq_cons hs.line]
    simp [countBlank, hm.blank]) hb
  rw [textSize_append] at hsmall
  refine OutOk.bind (OutOk.nest hE h4.2 (by omega) body rfl) fun stack s5 h5 => ?_
  refine OutOk.bind (leaveNested_safe _ h5.1.2) fun _ s hs => ?_
  refine docValueRule ?_
  refine OutOk.ite (fun _ => OutOk.failed) fun _ => ?_
  refine requiredRule fun n hn => ?_
  refine Ready.docRule (OutOk.mapData hs (setWidths_indent _)) ?_
  intro _ s hs
  exact OutOk.pure (moveOk_push hs hk _)

theorem OutOk.iteD {α : Type} {c : Prop} [Decidable c] {x y : P α} {Q : α → PS → Prop} {s : PS} (hx : OutOk (x s) Q)
    (hy : OutOk (y s) Q) : OutOk ((if c then x else y) s) Q := by split <;> assumption

theorem dispatchDirective_safe (hk : 1 ≤ k) (hE : NestSafe E.nested (textSize E.src) k) {s : PS} (hs : s.At E line)
    (label : Str) {body first : Nat} {empty : Bool} (hm : Marker E line s.cursor.offset body first empty) :
    OutOk (dispatchDirective E label body first empty s) (MoveOk k) := by
  unfold dispatchDirective
  cases standardAdmonition label with
  | some variant => exact parseStandardAdmonition_safe hE hs _ hm
  | none =>
    dsimp only
    refine OutOk.iteD (parseGenericAdmonition_safe hk hs _ _ _) ?_
    refine OutOk.iteD (parseImage_safe hk hs _ _ _) ?_
    refine OutOk.iteD (parseFigure_safe hk hs _ _ _) ?_
    refine OutOk.iteD (parseCode_safe hs _ _ _) ?_
    refine OutOk.iteD (parseMathBlock_safe hs _ _ _) ?_
    refine OutOk.iteD (parseListTable_safe hk hE hs hm) ?_
    refine OutOk.iteD (show _ ∈ crashReasons by simp [crashReasons]) ?_
    refine OutOk.iteD (parseClass_safe hE hs hm) ?_
    refine OutOk.iteD (parseSphinxCodeBlock_safe hs _ _ _) ?_
    refine OutOk.iteD (parseSphinxOnly_safe hk hs _ _ _) ?_
    refine OutOk.iteD (parseQuestionnaire_safe hk hs _ _ _) ?_
    refine OutOk.iteD (parseSubmit_safe hk hs _ _ _) ?_
    refine OutOk.iteD (parseActiveInput_safe hk hs _ _ _) ?_
    refine OutOk.iteD (parseActiveOutput_safe hk hs _ _ _) ?_
    refine OutOk.iteD (parsePointOfInterest_safe hk hs _ _ _) ?_
    exact parseUnknownDirective_safe hk hs _ _ _ _

end Rustla
