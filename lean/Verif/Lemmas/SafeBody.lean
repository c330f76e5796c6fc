import Verif.Lemmas.SafeNested
import Verif.Lemmas.Captures
import Verif.Lemmas.PlainLines
/-! # Transition functions do not crash for unknown reasons -/
namespace Rustla

variable {E : Env} {k : Nat} {line : Str}

/-! ## Characters that a pattern does not match -/

/-- No class of the pattern contains the character. -/
def Re.without (x : Char) : Re → Prop
  | .eps => True
  | .cls p => p x = false
  | .seq a b => a.without x ∧ b.without x
  | .alt a b => a.without x ∧ b.without x
  | .star _ r => r.without x
  | .cap _ r => r.without x
  | .eos => True

theorem Re.run_without (x : Char) (r : Re) (hr : r.without x) :
    ∀ s cs q, q ∈ r.run s cs → ∃ m, s = m ++ q.1 ∧ x ∉ m := by
  induction r with
  | eps => intro s cs q h; simp [Re.run] at h; subst h; exact ⟨[], rfl, by simp⟩
  | cls p =>
    intro s cs q h
    cases s with
    | nil => simp [Re.run] at h
    | cons c s =>
      simp only [Re.run] at h
      split at h
      · simp at h; subst h
        refine ⟨[c], rfl, ?_⟩
        simp only [List.mem_singleton]
        rintro rfl
        have : p x = false := hr
        simp_all
      · simp at h
  | seq a b iha ihb =>
    intro s cs q h
    simp only [Re.run, List.mem_flatMap] at h
    obtain ⟨r, h1, h2⟩ := h
    obtain ⟨m1, e1, n1⟩ := iha hr.1 _ _ _ h1
    obtain ⟨m2, e2, n2⟩ := ihb hr.2 _ _ _ h2
    exact ⟨m1 ++ m2, by rw [e1, e2, List.append_assoc], by simp [n1, n2]⟩
  | alt a b iha ihb =>
    intro s cs q h
    simp only [Re.run, List.mem_append] at h
    rcases h with h | h
    · exact iha hr.1 _ _ _ h
    · exact ihb hr.2 _ _ _ h
  | star g r ih =>
    intro s cs q h
    simp only [Re.run] at h
    refine starRun_ind (Q := fun s _ s' _ => ∃ m, s = m ++ s' ∧ x ∉ m) (fun s _ => ⟨[], rfl, by simp⟩) ?_ _ _ _ _ h
    intro s cs r q hr' hq
    obtain ⟨m1, e1, n1⟩ := ih hr _ _ _ hr'
    obtain ⟨m2, e2, n2⟩ := hq
    exact ⟨m1 ++ m2, by rw [e1, e2, List.append_assoc], by simp [n1, n2]⟩
  | cap g r ih =>
    intro s cs q h
    simp only [Re.run, List.mem_map] at h
    obtain ⟨q', h1, rfl⟩ := h
    obtain ⟨m, e, n⟩ := ih hr _ _ _ h1
    exact ⟨m, e, n⟩
  | eos =>
    intro s cs q h
    simp only [Re.run] at h
    split at h
    · simp at h; subst h; exact ⟨[], rfl, by simp⟩
    · simp at h

theorem MatchedBy.without {b : Re} {t : Str} (h : MatchedBy b t) {x : Char} (hb : b.without x) : x ∉ t := by
  obtain ⟨s, cs, q, hq, e⟩ := h
  obtain ⟨m, e', hm⟩ := b.run_without x hb _ _ _ hq
  rw [e] at e'
  rw [List.append_cancel_right e']
  exact hm

/-- The name of a field contains no line feed. -/
theorem field_name {m : Match} (hm : reFieldMarker.captures line = some m) : '\n' ∉ m.getD .g2 := by
  unfold Match.getD
  cases hg : m.get .g2 with
  | none => simp
  | some t =>
    obtain ⟨b, hb, hm⟩ := reFieldMarker.get_prov hm hg
    have hb : b = (.alt (.cls clsNonWsNonBackslash)
        (.seq (.cls nonWs) (.seq (.star false (.cls clsNotNewline)) (.cls clsNonWsNonBackslash)))) := by
      simp only [reFieldMarker, Re.capBodies, Re.chr, Re.plus, List.append_nil, List.nil_append, List.cons_append,
        List.mem_cons, Prod.mk.injEq, reduceCtorEq, false_and, true_and, false_or, List.not_mem_nil, or_false] at hb
      exact hb
    subst hb
    exact hm.without ⟨rfl, rfl, rfl, rfl⟩

/-! ## Moves -/

theorem checkedSub_ok {a b : Nat} (h : b ≤ a) (t : String) : RunOk (checkedSub a b t) (· = a - b) := by
  unfold checkedSub
  rw [if_neg (by omega)]
  rfl

theorem indentMatches_ok {n : NodeType} (h : n.bodyIndent.isSome = true) (i : Nat) :
    RunOk (parentIndentMatches n i) (fun _ => True) := by
  unfold parentIndentMatches
  cases hb : n.bodyIndent with
  | none => rw [hb] at h; cases h
  | some b => trivial

theorem leave_safe {s : PS} (hs : s.Ready) : OutOk (leave s) (MoveOk k) := by
  unfold leave
  repeat safe_step
  safe_end

theorem enterQuote_safe (hk : 1 ≤ k) {s : PS} (hs : s.Ready) (i : Nat) : OutOk (enterQuote i s) (MoveOk k) := by
  unfold enterQuote
  repeat safe_step
  safe_end

theorem atIndent_safe (hk : 1 ≤ k) {s : PS} (hs : s.Ready) (i : Nat) {x : P Moves} (hx : OutOk (x s) (MoveOk k)) :
    OutOk (atIndent i x s) (MoveOk k) := by
  unfold atIndent
  safe_step
  refine liftRule (indentMatches_ok (DocTree.Full.indent hs) i) fun r _ => ?_
  cases r
  · exact enterQuote_safe hk hs i
  · exact hx
  · exact leave_safe hs

theorem atIndentOrLeave_safe {s : PS} (hs : s.Ready) (i : Nat) {x : P Moves} (hx : OutOk (x s) (MoveOk k)) :
    OutOk (atIndentOrLeave i x s) (MoveOk k) := by
  unfold atIndentOrLeave
  safe_step
  refine liftRule (indentMatches_ok (DocTree.Full.indent hs) i) fun r _ => ?_
  cases r
  · exact leave_safe hs
  · exact hx
  · exact leave_safe hs

/-! ## Paragraphs and sections -/

theorem paragraphText_safe {s : PS} (hs : s.Fit E) (i : Nat) : OutOk (paragraphText E i s) (fun _ s' => s' = s) := by
  unfold paragraphText
  have hsub : RunOk (checkedSub i E.baseIndent "body.rs parse_paragraph") (fun _ => True) := by
    unfold checkedSub
    split
    · show _ ∈ crashReasons; simp [crashReasons]
    · trivial
  refine liftRule hsub fun rel _ => ?_
  refine sameRule (OutOk.textBlock hs.bound _) fun a => ?_
  exact rfl

theorem fillParagraph_safe {s : PS} (hs : s.Ready) (t : Str) : OutOk (fillParagraph t s) (fun _ s' => s'.Ready) := by
  unfold fillParagraph
  safe_step
  refine OutOk.ite (fun _ => ?_) fun _ => ?_
  · safe_step
    exact (OutOk.popChild hs).weaken fun _ _ h => h.2
  · safe_step
    exact (OutOk.parent hs.sound).weaken fun _ _ h => h.2

theorem parseParagraph_safe (hk : 1 ≤ k) {s : PS} (hs : s.Fit E) (i : Nat) :
    OutOk (parseParagraph E i s) (MoveOk k) := by
  unfold parseParagraph
  refine atIndent_safe hk hs.full i ?_
  refine sameRule (paragraphText_safe hs i) fun block => ?_
  safe_step
  refine Ready.rule (fillParagraph_safe hs.full _) fun _ s hs => ?_
  refine OutOk.ite (fun _ => ?_) fun _ => ?_ <;> safe_end

theorem leaveForSection_safe {s : PS} (hs : s.Ready) : OutOk (leaveForSection s) (MoveOk k) := by
  unfold leaveForSection
  repeat safe_step
  safe_end

theorem newSection_indent (d : DocTree) (t : Str) (st : SectionLineStyle) :
    (d.newSectionData t st).bodyIndent.isSome = true := by
  unfold DocTree.newSectionData
  rfl

theorem openSection_safe (hk : 1 ≤ k) {s : PS} (hs : s.Ready) (t : Str) (st : SectionLineStyle) (n : Nat) :
    OutOk (openSection t st n s) (MoveOk k) := by
  unfold openSection
  safe_step
  refine OutOk.ite (fun _ => ?_) fun _ => ?_
  · refine Ready.docRule (OutOk.pushFocus hs (newSection_indent ..)) fun _ s hs => ?_
    repeat safe_step
    safe_end
  · cases asSection s.doc.sharedData with
    | none => exact leaveForSection_safe hs
    | some l =>
      dsimp only
      refine OutOk.ite (fun _ => ?_) fun _ => ?_
      · safe_step
        exact leave_safe hs
      · refine OutOk.bind (OutOk.setLevel' hs _) fun _ s' h => ?_
        refine Ready.docRule (OutOk.pushFocus h.2 (newSection_indent ..)) fun _ s hs => ?_
        safe_end

/-- The transition is safe at a line that its pattern matches. -/
def SafeAt (E : Env) (k : Nat) (line : Str) (r : Re) (f : Transition) : Prop :=
  ∀ m s, r.captures line = some m → s.At E line → OutOk (f m s) (MoveOk k)

theorem currentLine_safe {s : PS} (hs : s.At E line) (t : String) :
    OutOk (currentLine E t s) (fun l s' => l = line ∧ s' = s) := by
  unfold currentLine
  refine offsetRule ?_
  rw [hs.line]
  exact ⟨rfl, rfl⟩

theorem lineRule {β : Type} {f : Str → P β} {Q : β → PS → Prop} {s : PS} (hs : s.At E line) {t : String}
    (hf : OutOk (f line s) Q) : OutOk ((currentLine E t >>= f) s) Q :=
  OutOk.bind (currentLine_safe hs t) fun a s' h => by obtain ⟨rfl, rfl⟩ := h; exact hf

theorem emptyLine_safe {r : Re} : SafeAt E k line r emptyLine := fun _ _ _ hs => OutOk.pure (moveOk_neither hs.full _)
theorem backUp_safe {r : Re} : SafeAt E k line r backUp := fun _ _ _ hs => OutOk.pure (moveOk_pop hs.full _)

theorem textAt_safe (hk : 1 ≤ k) {s : PS} (hs : s.At E line) (g : Nat) : OutOk (textAt E g s) (MoveOk k) := by
  unfold textAt
  refine offsetRule ?_
  cases E.src[s.cursor.offset + 1]? with
  | none => exact parseParagraph_safe hk hs.fit _
  | some next =>
    dsimp only
    refine OutOk.ite (fun h => ?_) fun _ => ?_
    · refine OutOk.ite (fun _ => OutOk.failed) fun _ => ?_
      cases next with
      | nil => exact absurd h (by decide)
      | cons c cs =>
      refine liftRule (R := fun _ => True) trivial fun c _ => ?_
      refine lineRule hs ?_
      exact openSection_safe hk hs.full _ _ _
    · cases reText.captures next with
      | none => exact parseParagraph_safe hk hs.fit _
      | some m =>
        dsimp only
        refine OutOk.ite (fun _ => ?_) fun _ => parseParagraph_safe hk hs.fit _
        refine atIndent_safe hk hs.full _ ?_
        replace hs := hs.fit
        safe_step
        safe_end

theorem bodyText_safe (hk : 1 ≤ k) {r : Re} : SafeAt E k line r (bodyText E) := fun _ _ _ hs => textAt_safe hk hs _

/-- The first character of a group that always matches something. -/
theorem group_head {r : Re} {m : Match} (hm : r.captures line = some m) (g : Grp) (ha : r.always [g] = true)
    (hb : ∀ p ∈ r.capBodies, p.1 = g → 1 ≤ p.2.minLen) : ∃ c cs, m.getD g = c :: cs := by
  obtain ⟨t, ht⟩ := r.get_always1 hm g ha
  have hlen := r.get_minLen hm ht 1 hb
  have : m.getD g = t := by unfold Match.getD; rw [ht]; rfl
  rw [this]
  cases t with
  | nil => simp at hlen
  | cons c cs => exact ⟨c, cs, rfl⟩

theorem overlined_safe (hk : 1 ≤ k) {s : PS} (hs : s.Ready) (c : Char) (n : Nat) (t : Str) :
    OutOk (overlined E c n t s) (MoveOk k) := by
  unfold overlined
  safe_step
  safe_step
  refine OutOk.ite (fun _ => OutOk.failed) fun _ => ?_
  refine OutOk.ite (fun _ => ?_) fun _ => OutOk.failed
  exact openSection_safe hk hs _ _ _

theorem bodyLine_safe (hk : 1 ≤ k) : SafeAt E k line reLine (bodyLine E) := by
  intro m s hm hs
  unfold bodyLine
  dsimp only
  obtain ⟨c, cs, hc⟩ := group_head hm .g1 (by decide) (by decide)
  rw [hc]
  refine liftRule (R := fun _ => True) trivial fun ch _ => ?_
  safe_step
  safe_step
  refine OutOk.ite (fun _ => ?_) fun _ => ?_
  · refine OutOk.bind (OutOk.tryPush hs.full _) fun b s' h => ?_
    replace hs : s'.Ready := h.2
    refine OutOk.ite (fun _ => ?_) fun _ => ?_
    · exact OutOk.pure (moveOk_neither hs _)
    · exact leave_safe hs
  · refine OutOk.ite (fun _ => overlined_safe hk hs.full _ _ _) fun _ => ?_
    exact OutOk.ite (fun _ => parseParagraph_safe hk hs.fit _) fun _ => OutOk.failed

/-! ## Lists -/

theorem bodyBullet_safe (hk : 1 ≤ k) : SafeAt E k line reBullet (bodyBullet E) := by
  intro m s hm hs
  unfold bodyBullet
  obtain ⟨c, cs, hc⟩ := group_head hm .g2 (by decide) (by decide)
  rw [hc]
  refine liftRule (R := fun _ => True) trivial fun ch _ => ?_
  refine atIndent_safe hk hs.full _ ?_
  replace hs := hs.fit
  safe_step
  safe_end

theorem parseFirstNodeBlock_safe (hE : NestSafe E.nested (textSize E.src) k) {s : PS} (hs : s.At E line)
    (hne : line ≠ []) {text : Nat} {first : Option Nat} (h1 : E.baseIndent + 1 ≤ first.getD text) (h2 : E.baseIndent ≤ text)
    {st : State} (hst : st.live = true) :
    OutOk (parseFirstNodeBlock E text first st s) (fun v s' => s'.Ready ∧ v.1.length ≤ k) := by
  unfold parseFirstNodeBlock
  refine liftRule (checkedSub_ok (by omega) _) fun f hf => ?_
  refine liftRule (checkedSub_ok h2 _) fun b hb => ?_
  refine blockRule hs.fit fun lines n hbl => ?_
  dsimp only
  have hsmall := hbl.smaller (by subst hf; simp only [Option.getD_some]; omega) (by
    intro l hl; rw [hs.line] at hl; cases hl; exact hne)
  refine OutOk.bind (OutOk.nest hE hs.full hsmall text hst) fun stack s' h => ?_
  exact ⟨h.1.2, h.2⟩

theorem blockMoves {f : Nat → LineAdvance} {x : P (List State × Nat)} {s : PS}
    (hx : OutOk (x s) (fun v s' => s'.Ready ∧ v.1.length ≤ k)) :
    OutOk ((x >>= fun v => (pure (.push v.1, f v.2) : P Moves)) s) (MoveOk k) :=
  OutOk.bind hx fun _ _ h => OutOk.pure (moveOk_push h.1 h.2 _)

theorem utf8Len_ge (s : Str) : s.length ≤ utf8Len s := by
  unfold utf8Len
  induction s with
  | nil => exact Nat.le_refl _
  | cons c s ih =>
    simp only [List.map_cons, List.foldr_cons, List.length_cons]
    have := Char.utf8Size_pos c
    omega

/-- A line where a pattern matches at least one character is not empty. -/
theorem line_nonempty {r : Re} {m : Match} (hm : r.captures line = some m) (h : 1 ≤ r.minLen) : line ≠ [] := by
  rintro rfl
  have h1 := r.captures_minLen hm
  have h2 := congrArg List.length (r.captures_append hm)
  rw [List.length_append, List.length_nil] at h2
  omega

theorem listBullet_safe (hE : NestSafe E.nested (textSize E.src) k) : SafeAt E k line reBullet (listBullet E) := by
  intro m s hm hs
  unfold listBullet
  obtain ⟨c, cs, hc⟩ := group_head hm .g2 (by decide) (by decide)
  rw [hc]
  refine liftRule (R := fun _ => True) trivial fun ch _ => ?_
  safe_step
  have hl : RunOk (match asBulletList s.doc.sharedData with
    | some x => .ok x
    | none => .error (.explicit "bullet_list.rs bullet") : Run (Char × Nat × Nat)) (fun _ => True) := by
    cases asBulletList s.doc.sharedData with
    | none => show _ ∈ crashReasons; simp [crashReasons]
    | some x => trivial
  refine liftRule hl fun v _ => ?_
  obtain ⟨b, bi, ti⟩ := v
  dsimp only
  refine OutOk.ite (fun _ => ?_) fun _ => leave_safe hs.full
  refine OutOk.bind (OutOk.pushFocus hs.full rfl) fun _ s' h => ?_
  have hs' : s'.At E line := ⟨h.2, by rw [h.1]; exact hs.line⟩
  refine blockMoves (f := some) ?_
  have hw := reBullet.captures_minLen hm
  have hu := utf8Len_ge m.whole
  have hmin : reBullet.minLen = 1 := by decide
  exact parseFirstNodeBlock_safe hE hs' (line_nonempty hm (by decide)) (by simp only [Option.getD_none]; omega) (by omega) rfl

theorem enumCaptures_ok {m : Match} (hm : reEnumerator.captures line = some m) (lk : Option EnumKind) (a b : Bool) (n i : Nat) :
    RunOk (enumCaptures m lk a b n i) (fun _ => True) := by
  obtain ⟨g, hg, t, ht⟩ := reEnumerator.get_always hm [.arabicParens, .lowerRomanParens, .upperRomanParens, .lowerAlphaParens,
    .upperAlphaParens, .autoEnumeratorParens, .arabicRparen, .lowerRomanRparen, .upperRomanRparen,
    .lowerAlphaRparen, .upperAlphaRparen, .autoEnumeratorRparen, .arabicPeriod, .lowerRomanPeriod,
    .upperRomanPeriod, .lowerAlphaPeriod, .upperAlphaPeriod, .autoEnumeratorPeriod] (by decide)
  have roman : ∀ (c : Prop) [Decidable c] (x y : Option (Nat × EnumKind × EnumDelims)),
      RunOk (if c then .ok x else .ok y) (fun _ => True) := by
    intro c _ x y; split <;> trivial
  unfold enumCaptures
  dsimp only
  have step : ∀ (g : Grp) (f : Str → Run (Option (Nat × EnumKind × EnumDelims))) (r : Run (Option (Nat × EnumKind × EnumDelims))),
      (∀ s, RunOk (f s) (fun _ => True)) → (m.get g = none → RunOk r (fun _ => True)) →
      RunOk (match m.get g with | some s => f s | none => r) (fun _ => True) := by
    intro g f r h1 h2
    cases h : m.get g with
    | none => exact h2 h
    | some s => exact h1 s
  iterate 18 (refine step _ _ _ (fun s => by first | trivial | exact roman ..) fun _ => ?_)
  simp only [List.mem_cons, List.not_mem_nil, or_false] at hg
  rcases hg with h | h | h | h | h | h | h | h | h | h | h | h | h | h | h | h | h | h <;> subst h <;> simp_all

theorem isEnumeratedListItem_ok (src : List Str) (c : LineCursor) (b e n : Nat) (kind : EnumKind) (d : EnumDelims)
    (lk : EnumKind) (il : Bool) (i st : Nat) :
    RunOk (isEnumeratedListItem src c b e n kind d lk il i st) (fun _ => True) := by
  unfold isEnumeratedListItem
  split
  · trivial
  · dsimp only
    split
    · trivial
    · split
      · split
        · trivial
        · rename_i m hm
          have := enumCaptures_ok hm (some lk) il true i st
          split <;> rename_i h <;> rw [h] at this
          · exact this
          · trivial
          · trivial
      · trivial

theorem bodyEnumerator_safe (hk : 1 ≤ k) : SafeAt E k line reEnumerator (bodyEnumerator E) := by
  intro m s hm hs
  unfold bodyEnumerator
  dsimp only
  refine liftRule (enumCaptures_ok hm _ _ _ _ _) fun v _ => ?_
  safe_step
  safe_step
  refine liftRule (isEnumeratedListItem_ok ..) fun valid _ => ?_
  refine OutOk.ite (fun _ => textAt_safe hk hs _) fun _ => ?_
  refine atIndent_safe hk hs.full _ ?_
  replace hs := hs.fit
  safe_step
  safe_end

theorem listEnumerator_safe (hk : 1 ≤ k) (hE : NestSafe E.nested (textSize E.src) k) :
    SafeAt E k line reEnumerator (listEnumerator E) := by
  intro m s hm hs
  unfold listEnumerator
  dsimp only
  safe_step
  safe_step
  refine liftRule (enumCaptures_ok hm _ _ _ _ _) fun v _ => ?_
  safe_step
  safe_step
  refine liftRule (isEnumeratedListItem_ok ..) fun valid _ => ?_
  refine OutOk.ite (fun _ => textAt_safe hk hs _) fun _ => ?_
  refine OutOk.ite (fun _ => ?_) fun _ => leave_safe hs.full
  refine OutOk.bind (OutOk.mapData hs.full addItem_indent) fun _ s1 h1 => ?_
  refine OutOk.bind (OutOk.pushFocus h1.2 rfl) fun _ s2 h2 => ?_
  have hs2 : s2.At E line := ⟨h2.2, by rw [h2.1, h1.1]; exact hs.line⟩
  refine blockRule hs2.fit fun lines n hbl => ?_
  dsimp only
  have hw := reEnumerator.captures_minLen hm
  have hmin : 1 ≤ reEnumerator.minLen := by decide
  have hsmall := hbl.smaller (by simp only [Option.getD_some]; omega) (by
    intro l hl; rw [hs2.line] at hl; cases hl; exact line_nonempty hm hmin)
  refine OutOk.bind (OutOk.nest hE hs2.full hsmall _ rfl) fun stack s' h => ?_
  exact OutOk.pure (moveOk_push h.1.2 h.2 _)

theorem bodyFieldMarker_safe (hk : 1 ≤ k) {r : Re} : SafeAt E k line r (bodyFieldMarker E) := by
  intro m s hm hs
  unfold bodyFieldMarker
  refine atIndent_safe hk hs.full _ ?_
  replace hs := hs.fit
  safe_step
  safe_end

theorem fromNextLine_ge (src : List Str) (b i a : Nat) (c : LineCursor) (h : b ≤ a) : b ≤ indentFromNextLine src b i a c := by
  unfold indentFromNextLine
  split
  · exact h
  · split
    · exact h
    · dsimp only
      split
      · exact h
      · omega

theorem listFieldMarker_safe (hE : NestSafe E.nested (textSize E.src) k) :
    SafeAt E k line reFieldMarker (listFieldMarker E) := by
  intro m s hm hs
  unfold listFieldMarker
  dsimp only
  safe_step
  safe_step
  safe_step
  refine OutOk.ite (fun _ => ?_) fun _ => leave_safe hs.full
  have hin : OutOk (P.inlineNone (m.getD .g2) s) (fun _ s' => s'.At E line) := by
    unfold P.inlineNone
    rcases (C32_terminates none s.cursor (m.getD .g2) _ (Nat.le_refl _)).2 with ⟨⟨nodes, d, c⟩, h⟩ | h
    · rw [h]
      refine ⟨hs.full, ?_⟩
      have hc := (C34_newlines none s.cursor _ _ _ _ h).1
      rw [List.count_eq_zero_of_not_mem (field_name hm)] at hc
      show E.src[c.offset]? = some line
      rw [hc]; exact hs.line
    · rw [h]; exact List.mem_cons_self ..
  refine OutOk.bind hin fun nodes s1 h1 => ?_
  refine OutOk.ite (fun _ => OutOk.failed) fun _ => ?_
  refine OutOk.bind (OutOk.pushFocus h1.full rfl) fun _ s2 h2 => ?_
  have hs2 : s2.At E line := ⟨h2.2, by rw [h2.1]; exact h1.line⟩
  refine blockMoves (f := some) ?_
  have hw := reFieldMarker.captures_minLen hm
  have hmin : 1 ≤ reFieldMarker.minLen := by decide
  exact parseFirstNodeBlock_safe hE hs2 (line_nonempty hm hmin) (by simp only [Option.getD_some]; omega)
    (fromNextLine_ge _ _ _ _ _ (by omega)) rfl

theorem definitionText_safe (hk : 1 ≤ k) {r : Re} : SafeAt E k line r (definitionText E) := by
  intro m s hm hs
  unfold definitionText
  dsimp only
  safe_step
  cases E.src[s.cursor.offset + 1]? with
  | none => exact leave_safe hs.full
  | some next =>
    dsimp only
    refine OutOk.ite (fun _ => leave_safe hs.full) fun _ => ?_
    replace hs := hs.fit
    safe_step
    safe_step
    safe_end

/-! ## Explicit markup -/

theorem noteIndent_ge {marker after offset : Nat} (h1 : E.baseIndent ≤ marker) (h2 : E.baseIndent ≤ after) :
    E.baseIndent ≤ noteIndent E marker after offset := by
  unfold noteIndent
  split
  · split <;> omega
  · exact h2

theorem bodyFootnote_safe (hk : 1 ≤ k) (hE : NestSafe E.nested (textSize E.src) k) :
    SafeAt E k line reFootnote (bodyFootnote E) := by
  intro m s hm hs
  unfold bodyFootnote
  dsimp only
  safe_step
  safe_step
  safe_step
  safe_step
  refine atIndent_safe hk hs.full _ ?_
  refine OutOk.bind (OutOk.pushFocus hs.full rfl) fun _ s2 h2 => ?_
  have hs2 : s2.At E line := ⟨h2.2, by rw [h2.1]; exact hs.line⟩
  refine blockMoves (f := some) ?_
  have hw := reFootnote.captures_minLen hm
  have hmin : 1 ≤ reFootnote.minLen := by decide
  exact parseFirstNodeBlock_safe hE hs2 (line_nonempty hm hmin) (by simp only [Option.getD_some]; omega)
    (noteIndent_ge (by omega) (by omega)) rfl

theorem bodyCitation_safe (hk : 1 ≤ k) (hE : NestSafe E.nested (textSize E.src) k) :
    SafeAt E k line reCitation (bodyCitation E) := by
  intro m s hm hs
  unfold bodyCitation
  dsimp only
  safe_step
  refine atIndent_safe hk hs.full _ ?_
  refine OutOk.bind (OutOk.pushFocus hs.full rfl) fun _ s2 h2 => ?_
  have hs2 : s2.At E line := ⟨h2.2, by rw [h2.1]; exact hs.line⟩
  refine blockMoves (f := some) ?_
  have hw := reCitation.captures_minLen hm
  have hmin : 1 ≤ reCitation.minLen := by decide
  exact parseFirstNodeBlock_safe hE hs2 (line_nonempty hm hmin) (by simp only [Option.getD_some]; omega)
    (noteIndent_ge (by omega) (by omega)) rfl

theorem targetLabel_safe {s : PS} (hs : s.Ready) (n : Str) : OutOk (targetLabel n s) (fun _ s' => DocOnly s s') := by
  unfold targetLabel
  exact OutOk.ite (fun _ => OutOk.anonTarget hs) fun _ => ⟨rfl, hs⟩

theorem targetContent_safe {s : PS} (hs : s.Ready) (i : Nat) (l b : Str) :
    OutOk (targetContent i l b s) (fun _ s' => s'.Ready) := by
  unfold targetContent
  safe_step
  refine OutOk.ite (fun _ => ?_) fun _ => ?_
  · show _ ∈ crashReasons; simp [crashReasons]
  · exact (OutOk.required _).weaken fun _ _ h => by rw [h.2]; exact hs

theorem bodyHyperlinkTarget_safe (hk : 1 ≤ k) {r : Re} : SafeAt E k line r (bodyHyperlinkTarget E) := by
  intro m s hm hs
  unfold bodyHyperlinkTarget
  dsimp only
  refine Fit.docRule hs.fit (targetLabel_safe hs.full _) fun label s hs => ?_
  safe_step
  refine atIndent_safe hk hs.full _ ?_
  refine blockRule hs fun lines n hb => ?_
  dsimp only
  refine OutOk.ite (fun _ => ?_) fun _ => ?_
  · refine Ready.docRule (OutOk.internalTarget hs.full _) fun _ s hs => ?_
    safe_end
  · refine Ready.rule (targetContent_safe hs.full _ _ _) fun node s hs => ?_
    safe_step
    safe_end

theorem bodyDirective_safe (hk : 1 ≤ k) (hE : NestSafe E.nested (textSize E.src) k)
    (hf : reFieldMarker.captures line = none) (hb : isBlank line = false) :
    SafeAt E k line reDirective (bodyDirective E) := by
  intro m s hm hs
  unfold bodyDirective
  dsimp only
  refine lineRule hs ?_
  safe_step
  refine atIndent_safe hk hs.full _ ?_
  have hw := reDirective.captures_minLen hm
  have hmin : 1 ≤ reDirective.minLen := by decide
  exact dispatchDirective_safe hk hE hs _ ⟨rfl, by omega, hf, hb, rfl⟩

theorem bodyComment_safe (hk : 1 ≤ k) {r : Re} : SafeAt E k line r (bodyComment E) := by
  intro m s hm hs
  unfold bodyComment
  dsimp only
  safe_step
  refine atIndent_safe hk hs.full _ ?_
  replace hs := hs.fit
  refine blockRule hs fun lines n hb => ?_
  dsimp only
  safe_step
  safe_end

/-! ## Block quotes, literal blocks, A+ -/

theorem attribution_safe (hk : 1 ≤ k) : SafeAt E k line reAttribution (attribution E) := by
  intro m s hm hs
  unfold attribution
  dsimp only
  refine atIndent_safe hk hs.full _ ?_
  refine lineRule hs ?_
  have hw := reAttribution.captures_minLen hm
  have hmin : 1 ≤ reAttribution.minLen := by decide
  refine liftRule (checkedSub_ok (by omega) _) fun _ _ => ?_
  safe_step
  safe_step
  obtain ⟨raw, tail, mi, _, _, bf, hr⟩ := readIndented_block hs.line true (attributionIndent E
    ((m.getD .g1).length + E.baseIndent) (m.whole.length + E.baseIndent) s.cursor.offset)
    (if isBlank (line.drop m.whole.length) then none else some (m.whole.length + E.baseIndent)) true
  rw [hr]
  dsimp only
  refine liftRule (R := fun _ => True) trivial fun v _ => ?_
  obtain ⟨lines, n⟩ := v
  dsimp only
  replace hs := hs.fit
  repeat safe_step
  safe_end

theorem literalBlock_safe (q : Bool) {r : Re} : SafeAt E k line r (literalBlock E q) := by
  intro m s hm hs
  unfold literalBlock
  safe_step
  safe_step
  replace hs := hs.fit
  refine OutOk.ite (fun _ => ?_) fun _ => OutOk.ite (fun _ => ?_) fun _ => OutOk.failed
  · unfold indentedLiteral
    refine blockRule hs fun lines n hb => ?_
    dsimp only
    safe_step
    safe_end
  · unfold quotedLiteral
    safe_step
    refine OutOk.ite (fun _ => OutOk.failed) fun _ => ?_
    refine sameRule (OutOk.textBlock hs.bound _) fun a => ?_
    obtain ⟨lines, n⟩ := a
    dsimp only
    safe_step
    safe_step
    safe_end

theorem colBreak_safe (hk : 1 ≤ k) {r : Re} : SafeAt E k line r colBreak := by
  intro m s hm hs
  unfold colBreak
  refine atIndent_safe hk hs.full _ ?_
  replace hs := hs.fit
  safe_step
  safe_end

theorem questionnaireText_safe {r : Re} : SafeAt E k line r (questionnaireText E) := by
  intro m s hm hs
  unfold questionnaireText
  dsimp only
  refine atIndentOrLeave_safe hs.full _ ?_
  replace hs := hs.fit
  refine sameRule (OutOk.textBlock hs.bound _) fun a => ?_
  obtain ⟨lines, n⟩ := a
  dsimp only
  replace hs := hs.ready
  safe_step
  refine OutOk.ite (fun _ => ?_) fun _ => ?_
  · show _ ∈ crashReasons; simp [crashReasons]
  · refine Ready.docRule (pushParagraph_safe hs _ _) fun _ s hs => ?_
    safe_end

theorem questionnaireDirective_safe {r : Re} : SafeAt E k line r (questionnaireDirective E) := by
  intro m s hm hs
  unfold questionnaireDirective
  dsimp only
  refine lineRule hs ?_
  safe_step
  refine atIndentOrLeave_safe hs.full _ ?_
  unfold dispatchQuestion
  refine OutOk.iteD (parsePickOne_safe hs _ _ _) ?_
  refine OutOk.iteD (parsePickAny_safe hs _ _ _) ?_
  refine OutOk.iteD (parseFreetext_safe hs _ _ _) ?_
  exact leave_safe hs.full

/-! ## Tables -/

/-- The transition that is chosen at a line is safe. -/
def TableSafe (E : Env) (k : Nat) (line : Str) (ts : List (Re × Transition)) : Prop :=
  ∀ m f s, firstTransition line ts = some (m, f) → s.At E line → OutOk (f m s) (MoveOk k)

theorem TableSafe.nil : TableSafe E k line [] := by intro m f s h; cases h

theorem TableSafe.cons {r : Re} {f : Transition} {ts : List (Re × Transition)} (h : SafeAt E k line r f)
    (ht : r.captures line = none → TableSafe E k line ts) : TableSafe E k line ((r, f) :: ts) := by
  intro m g s hf hs
  rw [firstTransition] at hf
  cases hc : r.captures line with
  | none => rw [hc] at hf; exact ht hc m g s hf hs
  | some m' => rw [hc] at hf; cases hf; exact h _ _ hc hs

theorem not_blank (h : reBlankLine.captures line = none) : isBlank line = false := by
  cases hb : isBlank line with
  | false => rfl
  | true => obtain ⟨m, hm⟩ := blank_captures hb; rw [h] at hm; cases hm

theorem bodyRest_safe (hk : 1 ≤ k) (hE : NestSafe E.nested (textSize E.src) k) (hb : isBlank line = false) :
    TableSafe E k line (bodyRest E) := by
  unfold bodyRest
  refine .cons (bodyBullet_safe hk) fun _ => ?_
  refine .cons (bodyEnumerator_safe hk) fun _ => ?_
  refine .cons (bodyFieldMarker_safe hk) fun hf => ?_
  refine .cons (bodyFootnote_safe hk hE) fun _ => ?_
  refine .cons (bodyCitation_safe hk hE) fun _ => ?_
  refine .cons (bodyHyperlinkTarget_safe hk) fun _ => ?_
  refine .cons (bodyDirective_safe hk hE hf hb) fun _ => ?_
  refine .cons (bodyComment_safe hk) fun _ => ?_
  refine .cons (bodyLine_safe hk) fun _ => ?_
  exact .cons (bodyText_safe hk) fun _ => .nil

/-- Every transition of a parser is safe if the nested parsers are safe. -/
theorem table_safe (hk : 1 ≤ k) (hE : NestSafe E.nested (textSize E.src) k) {st : State} (hst : st.live = true)
    (line : Str) : ∃ ts, tableOf E st = .ok ts ∧ TableSafe E k line ts := by
  have body : TableSafe E k line (bodyTable E) := .cons emptyLine_safe fun h => bodyRest_safe hk hE (not_blank h)
  cases st
  case BlockQuote =>
    exact ⟨_, rfl, .cons emptyLine_safe fun h => .cons (attribution_safe hk) fun _ => bodyRest_safe hk hE (not_blank h)⟩
  case AplusMultiCol =>
    exact ⟨_, rfl, .cons emptyLine_safe fun h => .cons (colBreak_safe hk) fun _ => bodyRest_safe hk hE (not_blank h)⟩
  case BulletList => exact ⟨_, rfl, .cons emptyLine_safe fun _ => .cons (listBullet_safe hE) fun _ => .nil⟩
  case EnumeratedList => exact ⟨_, rfl, .cons emptyLine_safe fun _ => .cons (listEnumerator_safe hk hE) fun _ => .nil⟩
  case FieldList => exact ⟨_, rfl, .cons emptyLine_safe fun _ => .cons (listFieldMarker_safe hE) fun _ => .nil⟩
  case ListTable => exact ⟨_, rfl, .cons emptyLine_safe fun _ => .cons (bodyBullet_safe hk) fun _ => .nil⟩
  case LiteralBlock =>
    exact ⟨_, rfl, .cons emptyLine_safe fun _ => .cons (literalBlock_safe true) fun _ => .cons (literalBlock_safe false)
      fun _ => .nil⟩
  case AplusQuestionnaire =>
    exact ⟨_, rfl, .cons emptyLine_safe fun _ => .cons questionnaireDirective_safe fun _ => .cons questionnaireText_safe
      fun _ => .nil⟩
  case DefinitionList =>
    refine ⟨_, rfl, ?_⟩
    unfold definitionTable
    repeat' first
      | exact .nil
      | refine .cons emptyLine_safe fun _ => ?_
      | refine .cons backUp_safe fun _ => ?_
      | refine .cons (definitionText_safe hk) fun _ => ?_
  all_goals first
    | (cases hst; done)
    | exact ⟨_, rfl, body⟩
    | exact ⟨_, rfl, .nil⟩

end Rustla
