import Verif.Lemmas.Frames
import Verif.Lemmas.Leaves
import Verif.Lemmas.First
import Verif.Spec.Literals
/-! # Literal blocks -/
namespace Rustla
open Spec

/-! ## The paragraph that announces a literal block -/

theorem last_eq {s : Str} {c : Char} (h : s.getLast? = some c) : s = s.dropLast ++ [c] :=
  (List.dropLast_append_getLast? c (by simpa using h)).symm

theorem Spec.Announced.indicator {text left : Str} (h : Announced text left) :
    literalIndicator text = some left ∧ left.count '\n' = text.count '\n' ∧ left ≠ [] := by
  cases h with
  | colon h h1 h2 =>
    obtain ⟨c, hc, hw⟩ := h2
    have e1 := last_eq h1
    have e2 := last_eq hc
    rw [e2] at e1
    generalize left.dropLast.dropLast = u at e1
    subst e1; subst h
    refine ⟨?_, by simp [List.count_cons], by simp⟩
    simp [literalIndicator, hw]
  | space h h1 =>
    obtain ⟨c, hc, hw⟩ := h1
    have e1 := last_eq hc
    generalize left.dropLast = u at e1
    subst e1; subst h
    refine ⟨?_, by simp [List.count_cons], by simp⟩
    simp [literalIndicator, hw]

/-- The loop is at the given lines, behind a paragraph that announces a literal block. -/
structure AtLiteral (E : Env) (S : SectionData) (os : List Frame) (s : LoopState) (frames : List Frame) (lines : List Str) : Prop where
  here : E.src.drop s.ps.cursor.relativeOffset = lines
  spine : Spine s.ps.doc.tree (frames ++ os)
  stack : s.stack = stackFor ((frames.map (·.st)).reverse ++ [.LiteralBlock]) lines
  count : s.count ≤ 0
  secs : s.ps.doc.notes = (S, [])

/-- The announcement. -/
theorem AtL.announce {E : Env} {S : SectionData} {os : List Frame} {s : LoopState} {f : Frame} {fs : List Frame} {g rest : List Str} {ps : List Piece}
    {c i j : Nat} (hij : i + E.baseIndent = j) (h : At E S os s (f :: fs) (g.map (indentLine i) ++ rest) c)
    (hc : c ≤ 9) (hf : f.Body E j) (hp : Announces g ps) (hq : f.st = .BlockQuote → ∀ l, g.head? = some l → ¬ Dashed l) (hr : Ends i rest) :
    ∃ s', Goes E s s' ∧ AtLiteral E S os s' (f.add [paragraphShape j ps] :: fs) rest := by
  have hstands : Stands E s f.st (g.map (indentLine i) ++ rest) := by
    cases g with
    | nil => exact absurd rfl hp.notEmpty
    | cons l g => exact AtL.stands (l := indentLine i l) (ls := g.map (indentLine i) ++ rest) h hc
  have hstack : s.stack = (fs.map (·.st)).reverse ++ [f.st] := by
    cases g with
    | nil => exact absurd rfl hp.notEmpty
    | cons l g => exact AtL.stack_cons (l := indentLine i l) (ls := g.map (indentLine i) ++ rest) h
  have hsp := h.spine
  generalize hz : s.ps.doc.tree = z at hsp
  obtain ⟨ts, ht, hts⟩ := hf.table
  have hts' : ∀ l, g.head? = some l → firstTransition (indentLine i l) ts = firstTransition (indentLine i l) (bodyTable E) := by
    intro l hl
    refine hts _ (noBreak_text ?_ (hp.noBreak l hl) (fun e => hq e l hl) i)
    cases g with
    | nil => cases hl
    | cons a g => obtain rfl : a = l := by simpa using hl
                  exact hp.lines.1.toTextLine
  obtain ⟨a1, a2, a3⟩ := hp.text.indicator
  have hcount : (piecesSource ps).count '\n' = g.length - 1 := by
    have := groupText_newlines hp.notEmpty fun l hl => ⟨(hp.lines.all l hl).not_blank, (hp.lines.all l hl).oneLine⟩
    omega
  cases hsp with
  | mk hl ha =>
    rename_i n cs path
    obtain ⟨d', para, h1, h2, h3, h4⟩ := step_paragraph_any i (o := some (piecesSource ps)) (stack := s.stack ++ [.LiteralBlock]) rfl
      hstands ht hts' hf.notEnd hp.notEmpty hp.lines hp.pieces a1 rfl (by rintro rfl; exact a3 rfl) hcount hr
      (by rw [hz, hij, hl.1]; exact hf.indent)
      (by rw [hz]; show childIsAllowed n.data.kind _ = _; rw [hl.1]; exact hf.kids .Paragraph (by decide)) (cs := cs) (by rw [hz]; exact hl.2.1)
    rw [hij, h.calm] at h3
    rw [h.secs] at h2
    refine ⟨_, .step h1, ⟨?_, ?_, ?_, Nat.le_refl _, h2⟩⟩
    · have := drop_incr h.here g.length
      rw [this]; simp
    · show Spine d'.tree _
      rw [h4, hz]
      exact .mk (hl.add (ns := [para]) (by simp [shapesOf, h3, paragraphShape])) ha
    · simp only [hstack]; simp [stackFor, Frame.add]

/-! ## A line that consists of two colons -/

/-- The paragraph without text is removed again. -/
theorem parseParagraph_bare (E : Env) (k : Nat) (s : PS) {rest : List Str} {cs : List TreeNode}
    (hsrc : E.src.drop s.cursor.relativeOffset = indentLine k (str! "::") :: rest) (hr : ∀ l, rest.head? = some l → isBlank l = true)
    (hb : s.doc.tree.node.data.bodyIndent = some (k + E.baseIndent))
    (ha : childIsAllowed s.doc.tree.node.kind .Paragraph = .ok true) (hc : s.doc.tree.node.children = some cs)
    (hq : s.doc.hyperref.accumulated = []) :
    ∃ d', parseParagraph E (k + E.baseIndent) s = .ok (.push [.LiteralBlock], some 1) { s with doc := d' } ∧
      d'.notes = s.doc.notes ∧ d'.tree = s.doc.tree := by
  have hlen : ¬ E.src.length < s.cursor.relativeOffset := by
    intro h
    rw [List.drop_eq_nil_of_le (by omega)] at hsrc
    simp at hsrc
  have hread : readTextBlock E.src s.cursor.relativeOffset true true (some k) true = .ok ([str! "::"], 1) := by
    have := readText_lines k (g := [str! "::"]) (rest := rest) hsrc (by
      intro x hx; obtain rfl := List.mem_singleton.mp hx; exact ⟨':', [':'], rfl, by decide⟩) (fun l hl => .inl (hr l hl))
    simp [readTextBlock, hlen, this]
  have htext : Rustla.paragraphText E (k + E.baseIndent) s = .ok (str! "::") s := by
    have : ¬ (k + E.baseIndent < E.baseIndent) := by omega
    simp [Rustla.paragraphText, bind, P.bind, P.lift, checkedSub, this, P.textBlock, hread, pure, P.pure]
    decide
  obtain ⟨d1, cl, h1, h2, h3⟩ := P.pushFocus_ok (data := .Paragraph (k + E.baseIndent)) hc ha
    (show Simple Kind.Paragraph from ⟨by decide, by decide, by decide, by decide, by decide⟩) hq
  have hin := C57_markup (some d1) s.cursor [] trivial
  have hpath : d1.tree.path = (s.doc.tree.node, cs.length) :: s.doc.tree.path := by rw [h3]
  have hpar := P.parent_ok (s := { s with doc := d1 }) hpath hc
  obtain ⟨d2, e2⟩ : ∃ d2 : DocTree, d2 = { d1 with tree := ⟨s.doc.tree.node.setChildren (some (cs ++ [d1.tree.node])), s.doc.tree.path⟩ } := ⟨_, rfl⟩
  rw [← e2] at hpar
  have hfill : fillParagraph [] { s with doc := d1 } = .ok () { s with doc := d2.popChild.2 } := by
    have e : piecesSource [] = [] := rfl
    rw [e] at hin
    simp only [fillParagraph, bind, P.bind, P.inlineDoc, hin]
    simp only [List.map_nil, List.isEmpty_nil, if_true, Option.getD_some, List.count_nil]
    show P.parent.bind (fun _ => P.popChild) { s with doc := d1 } = _
    simp only [P.bind, hpar, P.popChild]
  have hpop : d2.popChild.2 = { d1 with tree := s.doc.tree } := by
    subst e2
    unfold DocTree.popChild TreeNode.popChild
    simp only [TreeNode.children_setChildren, List.getLast?_append, List.getLast?_singleton, Option.some_or, Option.map_some,
      List.dropLast_concat]
    cases ht : s.doc.tree with
    | mk node path =>
      rw [ht] at hc
      cases node with
      | mk a b c e f =>
        simp only [TreeNode.children] at hc
        subst hc
        rfl
  refine ⟨d2.popChild.2, ?_, ?_, ?_⟩
  · have hi : parentIndentMatches s.doc.tree.node.data (k + E.baseIndent) = .ok .justRight := by
      simp [parentIndentMatches, hb]
    have hli : literalIndicator (str! "::") = some [] := by decide
    simp only [parseParagraph, atIndent, bind, P.bind, P.doc, P.lift, DocTree.sharedData, hi, htext, h1, hli, Option.getD_some,
      hfill, pure, P.pure, Option.isSome_some, if_true]
  · rw [hpop]; exact h2
  · rw [hpop]

/-- Two colons are a line at the margin, and text elsewhere. -/
theorem bare_transition (E : Env) (i : Nat) : ∃ m, firstTransition (indentLine i (str! "::")) (bodyTable E) =
    some (m, if i = 0 then bodyLine E else bodyText E) ∧ m.getD .g1 = (if i = 0 then str! "::" else spaces i) ∧ (i = 0 → m.whole = str! "::") := by
  have hw : isWs ':' = false := by decide
  have hbul : reBullet.captures (spaces i ++ ':' :: [':']) = none := indented_dead (bullet_space _) hw (bullet_dead hw (by decide)) i
  have henum : reEnumerator.captures (spaces i ++ ':' :: [':']) = none := by
    refine indented_dead ?_ hw (enumerator_dead hw (by decide)) i
    intro s cs
    refine run_seq_dead (run_alt_dead (chr_space (by decide) _ _ _) (run_alt_dead (run_seq_dead ?_) (run_seq_dead ?_))) <;>
    · simp only [Re.alts]
      repeat (refine run_alt_dead (run_cap_dead ?_) ?_; · first | rfl | exact run_seq_dead rfl)
      exact run_cap_dead (run_chr_ne (by decide) _)
  have hx : ¬ Explicit (str! "::") := by decide
  have hrest : ∀ t1 t2 t3 t4 t5 t6 t7 t8 t9 t10 t11, firstTransition (spaces i ++ ':' :: [':']) [(reBlankLine, t1), (reBullet, t2), (reEnumerator, t3),
      (reFieldMarker, t4), (reFootnote, t5), (reCitation, t6), (reHyperlinkTarget, t7), (reDirective, t8), (reComment, t9), (reLine, t10), (reText, t11)] =
      firstTransition (spaces i ++ ':' :: [':']) [(reLine, t10), (reText, t11)] := by
    intro t1 t2 t3 t4 t5 t6 t7 t8 t9 t10 t11
    simp only [firstTransition, blankLine_dead (indented_not_blank hw i), hbul, henum,
      show reFieldMarker.captures (spaces i ++ ':' :: [':']) = none from indented_dead (chr_space (by decide) _) hw (field_dead hw (by decide)) i,
      show reFootnote.captures (spaces i ++ ':' :: [':']) = none from indented_dead (dots_space _) hw (dots_dead gap_seq hw hx) i,
      show reCitation.captures (spaces i ++ ':' :: [':']) = none from indented_dead (dots_space _) hw (dots_dead gap_seq hw hx) i,
      show reHyperlinkTarget.captures (spaces i ++ ':' :: [':']) = none from indented_dead (dots_space _) hw (dots_dead gap_seq hw hx) i,
      show reDirective.captures (spaces i ++ ':' :: [':']) = none from indented_dead (dots_space _) hw (dots_dead gap_seq hw hx) i,
      show reComment.captures (spaces i ++ ':' :: [':']) = none from indented_dead (dots_space _) hw (dots_dead gap_alt hw hx) i]
  show ∃ m, firstTransition (spaces i ++ ':' :: [':']) (bodyTable E) = _ ∧ _
  unfold bodyTable bodyRest
  rw [hrest]
  cases i with
  | zero =>
    have : reLine.captures (str! "::") = some ⟨str! "::", [], [(.g1, str! "::")]⟩ := by rfl
    refine ⟨⟨str! "::", [], [(.g1, str! "::")]⟩, ?_, rfl, fun _ => rfl⟩
    simp only [firstTransition, spaces, List.replicate_zero, List.nil_append, this, if_true]
  | succ i =>
    obtain ⟨m, hm, hg⟩ := indented_text (t := [':']) hw (i + 1)
    have hline : reLine.captures (spaces (i + 1) ++ ':' :: [':']) = none := by
      have := spaces_not_line (i := i) (t := str! "::")
      cases hc : reLine.captures (spaces (i + 1) ++ ':' :: [':']) with
      | none => rfl
      | some m =>
        have h2 : reLine.isMatch (spaces (i + 1) ++ ':' :: [':']) = true := (Re.isMatch_iff _ _).mpr ⟨m, hc⟩
        have e : spaces (i + 1) ++ ':' :: [':'] = ' ' :: spaces i ++ str! "::" := rfl
        rw [e, this] at h2; cases h2
    refine ⟨m, ?_, by simp [hg], by omega⟩
    simp [firstTransition, hline, hm]

/-- Two colons announce a literal block. -/
theorem AtL.bare {E : Env} {S : SectionData} {os : List Frame} {s : LoopState} {f : Frame} {fs : List Frame} {rest : List Str}
    {c i : Nat} (h0 : E.baseIndent = 0) (h : At E S os s (f :: fs) (indentLine i (str! "::") :: rest) c)
    (hc : c ≤ 9) (hf : f.Body E i) (hr : ∃ b rest', rest = b :: rest' ∧ isBlank b = true) :
    ∃ s', Goes E s s' ∧ AtLiteral E S os s' (f :: fs) rest := by
  have hstands : Stands E s f.st (indentLine i (str! "::") :: rest) := AtL.stands h hc
  have hstack : s.stack = (fs.map (·.st)).reverse ++ [f.st] := AtL.stack_cons h
  have hsp := h.spine
  generalize hz : s.ps.doc.tree = z at hsp
  obtain ⟨ts, ht, hts⟩ := hf.table
  have hnb : NoBreak f.st (indentLine i (str! "::")) := noBreak_indented (by decide) (by decide) fun _ => by decide
  obtain ⟨m, hm, hm1, hm2⟩ := bare_transition E i
  rw [← hts _ hnb] at hm
  obtain ⟨b, rest', rfl, hb⟩ := hr
  cases hsp with
  | mk hl ha =>
    rename_i n cs path
    obtain ⟨d', p1, p2, p3⟩ := parseParagraph_bare E i s.ps (cs := cs) h.here (by simpa using hb)
      (by rw [hz, hl.1, h0]; exact hf.indent) (by rw [hz]; show childIsAllowed n.data.kind _ = _; rw [hl.1]; exact hf.kids .Paragraph (by decide))
      (by rw [hz]; exact hl.2.1) h.calm
    rw [h0, Nat.add_zero] at p1
    have hnext : E.src[s.ps.cursor.relativeOffset + 1]? = some b := by
      have := congrArg (·[1]?) h.here
      simpa using this
    have hact : (if i = 0 then bodyLine E else bodyText E) m s.ps = .ok (.push [.LiteralBlock], some 1) { s.ps with doc := d' } := by
      by_cases e : i = 0
      · subst e
        have hlen : ¬ (4 ≤ (trimEnd (str! "::")).length) := by decide
        have htr : Rustla.trim (str! "::") = str! "::" := by decide
        have hnt : reText.isMatch b = false := by
          cases e : reText.isMatch b with
          | false => rfl
          | true =>
            obtain ⟨m, hm⟩ := (Re.isMatch_iff _ _).mp e
            rw [blank_not_text hb] at hm; cases hm
        simp only [if_true] at hm1
        simp only [if_true, bodyLine, hm1, hm2 rfl, bind, P.bind, P.lift, P.offset, P.required, hnext, pure, P.pure, hlen, decide_false,
          Bool.and_false, Bool.false_eq_true, if_false, hnt, htr]
        exact p1
      · simp only [if_neg e] at hm1 ⊢
        simp only [bodyText, textAt, hm1, bind, P.bind, P.offset, hnext, blank_not_line hb, Bool.false_eq_true, if_false, blank_not_text hb]
        simpa [spaces, h0] using p1
    have := step_moved hstands ht hf.notEnd hm hact (k := 1) (stack := s.stack ++ [.LiteralBlock]) rfl rfl (by simp) (by simp)
    refine ⟨_, .step this, ⟨drop_incr h.here 1, ?_, ?_, Nat.le_refl _, p2.trans h.secs⟩⟩
    · show Spine d'.tree _
      rw [p3, hz]
      exact .mk hl ha
    · simp only [hstack]; simp [stackFor]

theorem tableOf_literal (E : Env) : tableOf E .LiteralBlock =
    .ok [(reBlankLine, emptyLine), (reQuotedLiteralBlock, literalBlock E true), (reIndentedLiteralBlock, literalBlock E false)] := rfl

theorem AtLiteral.stands {E : Env} {S : SectionData} {os : List Frame} {s : LoopState} {fs : List Frame} {l : Str} {ls : List Str}
    (h : AtLiteral E S os s fs (l :: ls)) : Stands E s .LiteralBlock (l :: ls) :=
  ⟨h.here, by simp, by rw [h.stack]; simp [stackFor], by have := h.count; omega⟩

/-- The blank lines behind the announcement. -/
theorem AtLiteral.blanks {E : Env} {S : SectionData} {os : List Frame} {fs : List Frame} {ls : List Str} :
    ∀ {bs : List Str} {s : LoopState}, (∀ l ∈ bs, isBlank l = true) → AtLiteral E S os s fs (bs ++ ls) →
      ∃ s', Goes E s s' ∧ AtLiteral E S os s' fs ls
  | [], s, _, h => ⟨s, .refl _ _, h⟩
  | b :: bs, s, hb, h => by
    have hstep := step_blank (ls := bs ++ ls) h.stands (tableOf_literal E) (by simp) (hb b (by simp))
    have h' : AtLiteral E S os { ps := { s.ps with cursor := s.ps.cursor.incrementBy 1 }, stack := stackFor s.stack (bs ++ ls), changed := true, count := 0 }
        fs (bs ++ ls) := ⟨drop_incr h.here 1, h.spine, by have := h.stack; simp only [this]; simp [stackFor], Nat.le_refl _, h.secs⟩
    obtain ⟨s', h1, h2⟩ := blanks (fun l hl => hb l (by simp [hl])) h'
    exact ⟨s', Goes.trans (.step hstep) h1, h2⟩

/-! ## The literal block -/

theorem quoted_alts : reQuotedLiteralBlock = .seq (.cap .g1 (.star true (.cls isWs))) (.cap .g2 (Re.alts (quotingChars.map .chr))) := rfl

theorem First.alts {c : Char} {t : Str} {cs : Caps} : ∀ {l : List Char}, c ∈ l → First (Re.alts (l.map .chr)) (c :: t) cs (t, cs)
  | [], h => by cases h
  | [a], h => by
    obtain rfl := List.mem_singleton.mp h
    exact .cls (by simp) t cs
  | a :: b :: l, h => by
    show First (.alt (.chr a) (Re.alts ((b :: l).map .chr))) _ _ _
    by_cases e : c = a
    · subst e
      exact .left (.cls (by simp) t cs)
    · exact .right (chr_dead (by simpa using e) cs) (First.alts (by simpa [e] using h))

theorem quoting_not_ws {c : Char} (h : c ∈ quotingChars) : isWs c = false := by
  revert c; decide

/-- A line that starts with a quoting character. -/
theorem quoted_captures {c : Char} (h : c ∈ quotingChars) (k : Nat) (t : Str) :
    reQuotedLiteralBlock.captures (spaces k ++ c :: t) = some ⟨spaces k ++ [c], t, [(.g2, [c]), (.g1, spaces k)]⟩ := by
  have h1 : First (.cap .g1 (.star true (.cls isWs))) (spaces k ++ c :: t) [] (c :: t, [(.g1, spaces k)]) :=
    .cap (.star (fun x hx => by obtain rfl := List.eq_of_mem_replicate hx; decide) (by
      intro x hx; obtain rfl : c = x := by simpa using hx
      exact quoting_not_ws h) [])
  have h2 := First.seq h1 (.cap (g := .g2) (w := [c]) (First.alts (t := t) (cs := [(.g1, spaces k)]) h))
  rw [quoted_alts]
  have := First.captures (w := spaces k ++ [c]) (s := t) (r := .seq (.cap .g1 (.star true (.cls isWs))) (.cap .g2 (Re.alts (quotingChars.map .chr))))
    (cs := [(.g2, [c]), (.g1, spaces k)]) (by simpa using h2)
  simpa using this

/-- A line that starts with another character. -/
theorem quoted_dead {c : Char} (hc : isWs c = false) (h : c ∉ quotingChars) (k : Nat) (t : Str) :
    reQuotedLiteralBlock.captures (spaces k ++ c :: t) = none := by
  rw [Re.captures_none_iff, List.eq_nil_iff_forall_not_mem, quoted_alts]
  intro q hq
  obtain ⟨r, hr, hq⟩ := mem_seq.mp hq
  obtain ⟨m, r', h1, h2, rfl⟩ := mem_cap.mp hr
  obtain ⟨_, m', h3, h4⟩ := mem_star_cls.mp h2
  obtain ⟨m2, r2, _, h5, _⟩ := mem_cap.mp hq
  obtain ⟨x, hx, h6⟩ := mem_alts (by decide) h5
  obtain ⟨a, ha, rfl⟩ := List.mem_map.mp hx
  have h7 : ∃ t', r'.1 = a :: t' := by
    obtain ⟨t', h7, _⟩ := mem_chr.mp h6
    exact ⟨t', h7⟩
  obtain ⟨t', ht'⟩ := h7
  rw [ht'] at h3
  have e1 := (takeWhile_ws (p := m') (t := t') (c := a) h4 (quoting_not_ws ha)).2
  have e2 := (takeWhile_ws (p := spaces k) (t := t) (c := c) (fun x hx => by obtain rfl := List.eq_of_mem_replicate hx; decide) hc).2
  rw [h3, e1] at e2
  cases e2
  exact h ha

/-- An indented line. -/
theorem indentedLiteral_captures {c : Char} (hc : isWs c = false) (k : Nat) (t : Str) :
    reIndentedLiteralBlock.captures (spaces (k + 1) ++ c :: t) = some ⟨spaces (k + 1) ++ [c], t, [(.g1, spaces (k + 1))]⟩ := by
  have h1 : First (.cap .g1 (Re.plus true (.cls isWs))) (spaces (k + 1) ++ c :: t) [] (c :: t, [(.g1, spaces (k + 1))]) :=
    .cap (.plus (by simp [spaces]) (fun x hx => by obtain rfl := List.eq_of_mem_replicate hx; decide) (by
      intro x hx; obtain rfl : c = x := by simpa using hx
      exact hc) [])
  have h2 := First.seq h1 (First.cls (p := nonWs) (by simp [nonWs, hc]) t [(.g1, spaces (k + 1))])
  have := First.captures (w := spaces (k + 1) ++ [c]) (s := t) (r := reIndentedLiteralBlock) (cs := [(.g1, spaces (k + 1))]) (by
    unfold reIndentedLiteralBlock; simpa using h2)
  simpa using this

/-- The first line of a literal block is found to be one. -/
theorem literal_transition (E : Env) {c : Char} (hc : isWs c = false) (k : Nat) (t : Str) (h : 0 < k ∨ c ∈ quotingChars) :
    ∃ m q, firstTransition (spaces k ++ c :: t) [(reBlankLine, emptyLine), (reQuotedLiteralBlock, literalBlock E true),
        (reIndentedLiteralBlock, literalBlock E false)] = some (m, literalBlock E q) ∧ m.getD .g1 = spaces k ∧
      (c ∈ quotingChars → q = true ∧ m.getD .g2 = [c]) := by
  have hb := blankLine_dead (indented_not_blank (t := t) hc k)
  by_cases hq : c ∈ quotingChars
  · refine ⟨⟨spaces k ++ [c], t, [(.g2, [c]), (.g1, spaces k)]⟩, true, by simp only [firstTransition, hb, quoted_captures hq k t], rfl, fun _ => ⟨rfl, rfl⟩⟩
  · cases k with
    | zero => exact absurd h (by simp [hq])
    | succ k =>
      exact ⟨⟨spaces (k + 1) ++ [c], t, [(.g1, spaces (k + 1))]⟩, false, by simp only [firstTransition, hb, quoted_dead hc hq (k + 1) t, indentedLiteral_captures hc k t], rfl, fun h => absurd h hq⟩

theorem simple_literal : Simple .LiteralBlock := ⟨by decide, by decide, by decide, by decide, by decide⟩

theorem skipSpace_eq (s : Str) : skipSpace s = trimStart s := by
  induction s with
  | nil => rfl
  | cons c t ih =>
    unfold trimStart at ih ⊢
    rw [skipSpace, List.dropWhile_cons, ih]

theorem unquote_all (q : Char) : ∀ ls : List Str, (ls.map (q :: ·)).mapM (unquote q) = some (ls.map skipSpace)
  | [] => rfl
  | l :: ls => by
    have := unquote_all q ls
    simp [List.mapM_cons, this, unquote, skipSpace_eq]

theorem unlines_joined : ∀ ls : List Str, joinWith ['\n'] ls = unlines ls := by
  intro ls
  induction ls with
  | nil => rfl
  | cons l ls ih =>
    cases ls with
    | nil => rfl
    | cons => simp only [joinWith, unlines, ih]; simp

/-- The literal block is read, and the state behind the announcement is left. -/
theorem AtLiteral.block {E : Env} {S : SectionData} {os : List Frame} {s : LoopState} {f : Frame} {fs : List Frame} {V : Verbatim} {rest : List Str}
    {i : Nat} (h0 : E.baseIndent = 0) (h : AtLiteral E S os s (f :: fs) (V.lines i ++ rest)) (hf : f.Body E i) (hV : V.Ok) (hr : Low (i + 1) rest) :
    Leads E S os s (f.add [V.shape] :: fs) rest 0 := by
  have hsp := h.spine
  generalize hz : s.ps.doc.tree = z at hsp
  cases hsp with
  | mk hl ha =>
    rename_i n cs path
    have hind : s.ps.doc.sharedData.bodyIndent = some i := by
      show s.ps.doc.tree.node.data.bodyIndent = _
      rw [hz, hl.1]; exact hf.indent
    obtain ⟨d', n', p1, p2, p3, p4⟩ := P.push_ok (s := s.ps) (data := .LiteralBlock V.text) (cs := cs) (by rw [hz]; exact hl.2.1)
      (by rw [hz]; show childIsAllowed n.data.kind _ = _; rw [hl.1]; exact hf.kids .LiteralBlock (by decide)) simple_literal
      (congrArg Prod.snd h.secs)
    -- what the transition does
    have key : ∀ (l : Str) (ls : List Str) (c : Char) (t : Str) (k m : Nat) (rest' : List Str), V.lines i ++ rest = l :: ls → l = spaces k ++ c :: t →
        isWs c = false → (0 < k ∨ c ∈ quotingChars) → m ≠ 0 → (V.lines i ++ rest).drop m = rest' → m ≤ (l :: ls).length →
        (∀ (mt : Match) (q : Bool), mt.getD .g1 = spaces k → (c ∈ quotingChars → q = true ∧ mt.getD .g2 = [c]) →
          literalBlock E q mt s.ps = .ok (.pop, some m) { s.ps with doc := d' }) →
        Leads E S os s (f.add [V.shape] :: fs) rest' 0 := by
      intro l ls c t k m rest' e1 e2 hc hk hm hd hlen hact
      obtain ⟨mt, q, t1, t2, t3⟩ := literal_transition E hc k t hk
      rw [e1] at h
      rw [← e2] at t1
      have hs : s.stack = (fs.map (·.st)).reverse ++ [f.st] ++ [.LiteralBlock] := by rw [h.stack]; simp [stackFor]
      have hpop : applyPushOrPop s.stack .pop = .ok ((fs.map (·.st)).reverse ++ [f.st]) := by
        rw [hs]; simp [applyPushOrPop]
      have := step_moved h.stands (tableOf_literal E) (by simp) t1 (hact mt q t2 t3) hpop (k := m) rfl hm hlen
      refine ⟨_, .step this, ⟨?_, ?_, ?_, Nat.le_refl _, p2.trans h.secs⟩⟩
      · have := drop_incr h.here m
        rw [this, ← e1, hd]
      · show Spine d'.tree _
        rw [p4, hz]
        exact .mk (hl.add (ns := [n']) (by simp [shapesOf, p3, Verbatim.shape])) ha
      · rw [← e1, hd]; simp [Frame.add]
    cases V with
    | indented k ls =>
      obtain ⟨hc, l, hl1, c, hl2, hw⟩ := hV
      obtain ⟨ls', rfl⟩ : ∃ ls', ls = l :: ls' := by cases ls <;> simp at hl1; exact ⟨_, by rw [hl1]⟩
      obtain ⟨t, rfl⟩ : ∃ t, l = c :: t := by cases l <;> simp at hl2; exact ⟨_, by rw [hl2]⟩
      refine key (spaces (i + (k + 1)) ++ c :: t) (ls'.map (contentLine (i + (k + 1))) ++ rest) c t (i + (k + 1)) (ls'.length + 1) rest ?_ rfl hw
        (.inl (by omega)) (by omega) ?_ ?_ ?_
      · simp [Verbatim.lines, contentLine, indentLine, spaces]
      · simp [Verbatim.lines]
      · simp
      · intro mt q m1 _
        have hread := indented_reads (E := E) (s := s.ps) (k := i + (k + 1)) (l := spaces (i + (k + 1)) ++ c :: t) (first := none)
          (ls := ls'.map (contentLine (i + (k + 1)))) (rest := rest) (by omega) (by
            rw [h.here]; simp [Verbatim.lines, contentLine, indentLine, spaces]) (by
            intro x hx; obtain ⟨y, _, rfl⟩ := List.mem_map.mp hx; exact content_indent _ _) (hr.mono (by omega)) (.inl rfl)
        have e : ((spaces (i + (k + 1)) ++ c :: t) :: ls'.map (contentLine (i + (k + 1)))).map (·.drop (i + (k + 1))) = (c :: t) :: ls' := by
          have := contents_drop (i + (k + 1)) ((c :: t) :: ls')
          simpa [contentLine, indentLine, spaces] using this
        have hlen : (mt.getD .g1).length + E.baseIndent = i + (k + 1) := by rw [m1, h0]; simp [spaces]
        have hgt : i + (k + 1) > i := by omega
        simp only [literalBlock, bind, P.bind, P.doc, hind, P.required, pure, P.pure, hlen, if_pos hgt, indentedLiteral, hread, e, unlines_joined,
          List.length_map]
        have p1' : P.push (.LiteralBlock (unlines ((c :: t) :: ls'))) s.ps = .ok () { s.ps with doc := d' } := p1
        simp only [p1']
    | quoted q ls after =>
      obtain ⟨hq, hne, han, hab⟩ := hV
      obtain ⟨l, ls', rfl⟩ := List.exists_cons_of_ne_nil hne
      have hq' : q ∈ quotingChars := hq
      have hw := quoting_not_ws hq'
      have step : Leads E S os s (f.add [(Verbatim.quoted q (l :: ls') after).shape] :: fs) (after ++ rest) 0 := by
        refine key (spaces i ++ q :: l) (ls'.map (fun l => indentLine i (q :: l)) ++ (after ++ rest)) q l i (ls'.length + 1) (after ++ rest) ?_ rfl hw
          (.inr hq') (by omega) ?_ ?_ ?_
        · simp [Verbatim.lines, indentLine, spaces]
        · simp [Verbatim.lines]
        · simp
        · intro mt b m1 m2
          obtain ⟨rfl, m3⟩ := m2 hq'
          have hsrc : E.src.drop s.ps.cursor.relativeOffset = ((l :: ls').map (q :: ·)).map (indentLine i) ++ (after ++ rest) := by
            rw [h.here]; simp [Verbatim.lines, Function.comp_def]
          have hread : P.textBlock E (some i) s.ps = .ok ((l :: ls').map (q :: ·), ls'.length + 1) s.ps := by
            have hlen : ¬ E.src.length < s.ps.cursor.relativeOffset := by
              intro hlt
              rw [List.drop_eq_nil_of_le (by omega)] at hsrc
              simp at hsrc
            have := readText_lines i hsrc (by
              intro x hx; obtain ⟨y, _, rfl⟩ := List.mem_map.mp hx; exact ⟨q, y, rfl, hw⟩) (by
              intro x hx
              cases after with
              | nil => exact absurd rfl han
              | cons a after => simp at hx; subst hx; exact .inl (hab _ (by simp)))
            simp [P.textBlock, readTextBlock, hlen, this, P.lift]
          have hlen : (mt.getD .g1).length + E.baseIndent = i := by rw [m1, h0]; simp [spaces]
          have hcon : quotingChars.contains q = true := by simpa using hq'
          have p1' : P.push (.LiteralBlock (unlines ((l :: ls').map skipSpace))) s.ps = .ok () { s.ps with doc := d' } := p1
          simp only [literalBlock, bind, P.bind, P.doc, hind, P.required, pure, P.pure, hlen, gt_iff_lt, Nat.lt_irrefl, if_false, and_self, if_true,
            quotedLiteral, m3, List.head?_cons, hcon, Bool.not_true, Bool.false_eq_true, hread, unquote_all, unlines_joined, p1']
      obtain ⟨s1, k1, k2⟩ := step
      exact k1.leads (k2.blanks (f := f.add _) hf.readable hab)

end Rustla
