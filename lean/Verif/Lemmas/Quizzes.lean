import Verif.Lemmas.Questions
import Verif.Lemmas.Layout
/-! # Parsing questionnaires -/
namespace Rustla
open Spec

section
variable {E : Env} {S : SectionData} {os : List Frame} {s : LoopState} {f : Frame} {fs : List Frame} {lines : List Str} {c : Nat}

/-- The situation of the loop as the situation of a transition. -/
theorem AtL.pos (h : At E S os s fs lines c) : Pos E S s.ps.cursor s.ps 0 (fs ++ os) lines :=
  ⟨rfl, h.here, h.spine, h.secs⟩

theorem Pos.count_le {E : Env} {S : SectionData} {c0 : LineCursor} {s : PS} {k : Nat} {fs : List Frame} {lines : List Str}
    (h : Pos E S c0 s k fs lines) {ls : List Str} (h0 : E.src.drop c0.relativeOffset = ls) : lines = ls.drop k := by
  rw [← h.here, h.cursor, drop_incr h0]

/-- A round in which the transition moves forward and stays in its state. -/
theorem AtL.moves {l : Str} {ls rest : List Str} (h : At E S os s (f :: fs) (l :: ls) c) (hc : c ≤ 9)
    {ts : List (Re × Transition)} (ht : tableOf E f.st = .ok ts) (hst : f.st ≠ .EOF ∧ f.st ≠ .Failure) {m : Match} {t : Transition}
    (hf : firstTransition l ts = some (m, t)) {adv : LineAdvance} {k n : Nat} {f' : Frame} {lines : List Str}
    (hd : Does E S s.ps.cursor (t m) s.ps (.neither, adv) k (f' :: (fs ++ os)) lines) (hs : f'.st = f.st)
    (hn : n = k + adv.getD 0) (h0 : n ≠ 0) (hle : n ≤ (l :: ls).length) (hr : rest = (l :: ls).drop n) :
    Leads E S os s (f' :: fs) rest 0 := by
  obtain ⟨ps, hres, hp⟩ := hd
  have hstack := h.stack_cons
  have hcur : applyAdvance ps.cursor adv = s.ps.cursor.incrementBy n := by
    rw [hp.cursor]
    cases adv with
    | none => rw [hn]; rfl
    | some j => rw [hn]; show LineCursor.incrementBy _ _ = _; rw [LineCursor.incrementBy_add]; rfl
  have hstep := step_moved (h.stands hc) ht hst hf hres (stack := s.stack) rfl hcur h0 hle
  refine ⟨_, .step hstep, ⟨?_, ?_, ?_, Nat.le_refl _, hp.secs⟩⟩
  · rw [hr]; exact drop_incr h.here n
  · exact hp.spine
  · simp only [hstack, List.map_cons, List.reverse_cons, hs, hr]

/-- The table of a questionnaire. -/
def quizTable (E : Env) : List (Re × Transition) :=
  [(reBlankLine, emptyLine), (reAplusQuestionnaireDirective, questionnaireDirective E), (reText, questionnaireText E)]

theorem tableOf_quiz (E : Env) : tableOf E .AplusQuestionnaire = .ok (quizTable E) := rfl

/-- The frame of a questionnaire. -/
structure Frame.Quiz (f : Frame) (i : Nat) : Prop where
  state : f.st = .AplusQuestionnaire
  kind : f.data.kind = .AplusQuestionnaire
  indent : f.data.bodyIndent = some i

theorem Frame.Quiz.readable {i : Nat} (h : f.Quiz i) : f.st.readable := by rw [h.state]; simp [State.readable]

theorem Frame.Quiz.notEnd {i : Nat} (h : f.Quiz i) : f.st ≠ .EOF ∧ f.st ≠ .Failure := by rw [h.state]; exact ⟨by simp, by simp⟩

theorem Frame.Quiz.next {i : Nat} (h : f.Quiz i) (p : Nat) (ss : List Shape) : ((f.earn p).add ss).Quiz i :=
  ⟨h.state, (addPoints_kind _ _).trans h.kind, (addPoints_indent _ _).trans h.indent⟩

theorem quiz_first {l : Str} (hb : reBlankLine.captures l = none) {m : Match} (h : reAplusQuestionnaireDirective.captures l = some m) :
    firstTransition l (quizTable E) = some (m, questionnaireDirective E) := by
  simp [quizTable, firstTransition, hb, h]

theorem quiz_second {l : Str} (hb : reBlankLine.captures l = none) {m : Match} (h : reAplusQuestionnaireDirective.captures l = none)
    (h' : reText.captures l = some m) : firstTransition l (quizTable E) = some (m, questionnaireText E) := by
  simp [quizTable, firstTransition, hb, h, h']

theorem question_enters {d : Dir} {i : Nat} {r : List Str} {ps : PS} (hb : E.baseIndent = 0)
    (h : E.src.drop ps.cursor.relativeOffset = d.lines i ++ r) (hi : ps.doc.sharedData.bodyIndent = some i)
    (hbody : indentOnSubsequentLines E.src (ps.cursor.relativeOffset + 1) = some (i + 3)) :
    questionnaireDirective E (directiveMatch d i) ps =
      dispatchQuestion E (toLower (splitWs d.name).flatten) (i + 3) (spaces i ++ d.head).length (isBlank d.arg) ps := by
  have hget : E.src[ps.cursor.relativeOffset]? = some (indentLine i d.marker) := by
    have := congrArg (·[0]?) h
    simpa [Dir.lines] using this
  have hmark : (indentLine i d.marker).drop (spaces i ++ d.head).length = d.arg := by
    rw [d.marker_eq]
    unfold indentLine
    rw [← List.append_assoc, List.drop_append_of_le_length (by simp), List.drop_eq_nil_of_le (by simp), List.nil_append]
  have hp : parentIndentMatches ps.doc.sharedData i = .ok .justRight := by
    unfold parentIndentMatches
    rw [hi]; simp
  have e1 : (directiveMatch d i).getD .g1 = spaces i := rfl
  have e2 : (directiveMatch d i).getD .g2 = d.name := rfl
  have e3 : (directiveMatch d i).whole = spaces i ++ d.head := rfl
  unfold questionnaireDirective currentLine
  simp only [e1, e2, e3, bind, P.bind, P.offset, hget, pure, P.pure, hmark, hb, hbody, List.length_replicate, atIndentOrLeave,
    P.doc, P.lift, hp, Nat.add_zero, Option.map_some, Option.getD_some]

theorem Spine.indent {z : Zipper} {i : Nat} (h : Spine z (f :: fs)) (hi : f.data.bodyIndent = some i) :
    z.node.data.bodyIndent = some i := by rw [h.data]; exact hi

/-- The content of a question with its lines. -/
theorem Spec.Entry.content {e : Entry} {i : Nat} {d : Dir} {gap r : List Str} {any : Bool} (he : e.Ok)
    (h : (∃ task cs H, e = .pick any d gap task cs H) ∨ (∃ p m task a H, e = .free d p m gap task a H)) :
    ∃ l ls, e.lines i ++ r = d.lines i ++ (gap ++ l :: ls) ∧ isBlank l = false ∧ indentOf l = i + 3 := by
  rcases h with ⟨task, cs, H, rfl⟩ | ⟨p, m, task, a, H, rfl⟩
  · obtain ⟨hd, _, _, _, hg, hb, ht, hne, hc, hh⟩ := he
    obtain ⟨l, ls, h1, h2, h3⟩ := content_front (i := i + 3) (r := H.lines (i + 3) ++ r) hne hc fun t e => (ht t e).1
    exact ⟨l, ls, by rw [← h1]; simp [Entry.lines], h2, h3⟩
  · obtain ⟨hd, _, harg, hnum, hpw, hmw, hg, hb, ht, hans, hh⟩ := he
    obtain ⟨l, ls, _, h1, h2, h3, _⟩ := task_front ht (i + 3) (indentLine (i + 3) a :: H.lines (i + 3) ++ r)
    exact ⟨_, ls, by rw [← h1]; simp [Entry.lines, Task.source], h2, h3⟩

theorem lines_dir (d : Dir) (i : Nat) (r : List Str) : ∃ ls, d.lines i ++ r = indentLine i d.marker :: ls := ⟨_, rfl⟩

/-- A question of a questionnaire. -/
theorem AtL.question {e : Entry} {i : Nat} {d : Dir} {gap rest : List Str} {any : Bool} (he : e.Ok)
    (hform : (∃ task cs H, e = .pick any d gap task cs H) ∨ (∃ p m task a H, e = .free d p m gap task a H))
    (hb : E.baseIndent = 0) (h : At E S os s (f :: fs) (e.lines i ++ rest) c) (hc : c ≤ 9) (hf : f.Quiz i) (hr : Low (i + 1) rest) :
    Leads E S os s ((f.earn e.points).add [e.shape i] :: fs) rest 0 := by
  obtain ⟨l, ls, h1, h2, h3⟩ := Spec.Entry.content (i := i) (r := rest) he hform
  have hgap : gap ≠ [] ∧ ∀ l ∈ gap, isBlank l = true := by
    rcases hform with ⟨task, cs, H, rfl⟩ | ⟨p, m, task, a, H, rfl⟩
    · exact ⟨he.2.2.2.2.1, he.2.2.2.2.2.1⟩
    · exact ⟨he.2.2.2.2.2.2.1, he.2.2.2.2.2.2.2.1⟩
  have hd : d.Ok := by
    rcases hform with ⟨task, cs, H, rfl⟩ | ⟨p, m, task, a, H, rfl⟩
    · exact he.1
    · exact he.1
  have hname : d.name ∈ questionNames := by
    rcases hform with ⟨task, cs, H, rfl⟩ | ⟨p, m, task, a, H, rfl⟩
    · rw [he.2.1]; cases any <;> decide
    · rw [he.2.1]; decide
  have hpos := h.pos
  have hbody : indentOnSubsequentLines E.src (s.ps.cursor.relativeOffset + 1) = some (i + 3) :=
    Pos.body (d := d) (gap := gap) (l := l) (r := ls) (by rw [h1] at hpos; exact hpos) hgap.1 hgap.2 h2 h3
  have hent := question_enters (E := E) (d := d) (ps := s.ps) (r := gap ++ l :: ls) hb (h.here.trans h1) (h.spine.indent hf.indent) hbody
  have hdoes : Does E S s.ps.cursor (questionnaireDirective E (directiveMatch d i)) s.ps (.neither, none) (0 + (e.lines i).length)
      ((f.earn e.points).add [e.shape i] :: (fs ++ os)) rest := by
    unfold Does
    rw [hent]
    rcases hform with ⟨task, cs, H, rfl⟩ | ⟨p, m, task, a, H, rfl⟩
    · rw [he.2.1]
      cases any with
      | false => exact hpos.pickOne he hr hf.kind hf.indent
      | true => exact hpos.pickAny he hr hf.kind hf.indent
    · rw [he.2.1]
      exact hpos.free he hr hf.kind hf.indent
  obtain ⟨tl, htl⟩ := lines_dir d i (gap ++ l :: ls)
  have hlines : e.lines i ++ rest = indentLine i d.marker :: tl := h1.trans htl
  have hnb : isBlank (indentLine i d.marker) = false := (front_dir hd i).not_blank
  have hpos' : 0 < (e.lines i).length := by
    rcases hform with ⟨task, cs, H, rfl⟩ | ⟨p, m, task, a, H, rfl⟩ <;> simp [Entry.lines, Dir.lines]
  have hlen : (e.lines i).length ≤ (indentLine i d.marker :: tl).length := by rw [← hlines]; simp
  refine AtL.moves (l := indentLine i d.marker) (ls := tl) (by rw [hlines] at h; exact h) hc
    (by rw [hf.state]; exact tableOf_quiz E) hf.notEnd (quiz_first (blankLine_dead hnb) (question_captures hd hname i)) hdoes rfl rfl ?_ ?_ ?_
  · simp only [Option.getD_none]; omega
  · simp only [Option.getD_none]; omega
  · simp only [Option.getD_none]
    rw [← hlines]; simp

/-- A paragraph of a questionnaire. -/
theorem AtL.quizText {g gap rest : List Str} {ps : List Piece} {i : Nat} (he : (Entry.text g ps gap).Ok)
    (h : At E S os s (f :: fs) ((Entry.text g ps gap).lines i ++ rest) c) (hc : c ≤ 9) (hf : f.Quiz i) :
    Leads E S os s (f.add [paragraphShape i ps] :: fs) rest 0 := by
  obtain ⟨hp, hdots, hg, hblank⟩ := he
  obtain ⟨l, ls, rfl⟩ := List.exists_cons_of_ne_nil hp.notEmpty
  have hl : Inset l := hp.lines l (by simp)
  obtain ⟨x, t, ext, hx⟩ := hl.cons
  have e0 : (Entry.text (l :: ls) ps gap).lines i ++ rest = (l :: ls).map (indentLine i) ++ (gap ++ rest) := by simp [Entry.lines]
  rw [e0] at h
  obtain ⟨m, hm1, hm2⟩ := indented_text (t := t) hx i
  have hind : indentLine i l = spaces i ++ x :: t := by unfold indentLine; rw [ext]
  rw [← hind] at hm1
  have hnb : isBlank (indentLine i l) = false := by rw [hind]; exact indented_not_blank hx i
  have hpar : parentIndentMatches s.ps.doc.sharedData i = .ok .justRight := by
    have : s.ps.doc.sharedData.bodyIndent = some i := h.spine.indent hf.indent
    unfold parentIndentMatches
    rw [this]; simp
  have hdoes : Does E S s.ps.cursor (questionnaireText E m) s.ps (.neither, some 1) (0 + (piecesSource ps).count '\n')
      (f.add [paragraphShape i ps] :: (fs ++ os)) (((l :: ls).map (indentLine i) ++ (gap ++ rest)).drop ((piecesSource ps).count '\n')) := by
    unfold questionnaireText atIndentOrLeave
    rw [hm2, List.length_replicate]
    refine Does.bind ⟨s.ps, rfl, h.pos⟩ fun s1 h1 => ?_
    refine Does.bind ⟨s1, by rw [show P.lift (parentIndentMatches s.ps.doc.sharedData i) = P.lift (.ok .justRight) from congrArg _ hpar]; rfl, h1⟩
      fun s2 h2 => ?_
    refine (h2.textBlock hp.notEmpty hp.lines (gap_stops hg hblank)).bind fun s3 h3 => ?_
    have e : joinWith ['\n'] (l :: ls) = piecesSource ps := by rw [← hp.text, unlines_join]
    simp only [e]
    refine (h3.inline hp.pieces).bind fun s4 h4 => ?_
    rw [hp.nodes]
    refine (h4.paragraph i ps ?_).bind fun s5 h5 => ?_
    · rw [hf.kind]; decide
    exact h5.pure _
  have hcount := hp.count
  have hnext := AtL.moves (l := indentLine i l) (ls := ls.map (indentLine i) ++ (gap ++ rest)) h hc
    (by rw [hf.state]; exact tableOf_quiz E) hf.notEnd (quiz_second (blankLine_dead hnb) (not_question hl (hdots l rfl) i) hm1) hdoes rfl
    (n := (l :: ls).length) (rest := gap ++ rest) (by simp only [Option.getD_some]; omega) (by simp)
    (by simp) (by
      have e : indentLine i l :: (ls.map (indentLine i) ++ (gap ++ rest)) = (l :: ls).map (indentLine i) ++ (gap ++ rest) := rfl
      rw [e, List.drop_append_of_le_length (by simp), List.drop_eq_nil_of_le (by simp), List.nil_append])
  obtain ⟨s', g1, g2⟩ := hnext
  exact g1.leads (AtL.blanks (f := f.add [paragraphShape i ps]) hf.readable hblank g2)

/-! ## Leaving a questionnaire -/

theorem question_indent {i : Nat} {x : Char} {t : Str} (hx : isWs x = false) {m : Match}
    (h : reAplusQuestionnaireDirective.captures (spaces i ++ x :: t) = some m) : m.getD .g1 = spaces i := by
  unfold Re.captures at h
  have e : reAplusQuestionnaireDirective.run (spaces i ++ x :: t) [] = _ :=
    run_seq_spaces (by intro s cs; exact run_seq_dead (run_seq_dead (run_chr_ne (by decide) _))) hx i []
  rw [e] at h
  generalize hr : Re.run _ (x :: t) [(Grp.g1, spaces i)] = r at h
  cases r with
  | nil => cases h
  | cons q qs =>
    have hq : q ∈ q :: qs := by simp
    rw [← hr] at hq
    obtain ⟨q1, h1, hq⟩ := mem_seq.mp hq
    obtain ⟨q2, h2, hq⟩ := mem_seq.mp hq
    obtain ⟨q3, h3, hq⟩ := mem_seq.mp hq
    obtain ⟨q4, h4, hq⟩ := mem_seq.mp hq
    obtain ⟨w, r, _, hr', e3⟩ := mem_cap.mp h3
    have er : r.2 = q2.2 := by
      rcases mem_alt.mp hr' with h | h
      · exact (mem_lit.mp h).2
      · rcases mem_alt.mp h with h | h
        · exact (mem_lit.mp h).2
        · exact (mem_lit.mp h).2
    have e5 : q.2 = q4.2 := by
      rcases mem_alt.mp hq with h | h
      · exact (mem_plus_chr.mp h).1
      · rw [(mem_eos.mp h).2]
    have ecaps : q.2 = [(.g2, w), (.g1, spaces i)] := by
      rw [e5, (mem_lit.mp h4).2, e3]
      simp only [er, (mem_plus_chr.mp h2).1, (mem_lit.mp h1).2]
    cases h
    show Match.getD ⟨_, _, q.2⟩ .g1 = _
    rw [ecaps]; rfl

/-- A line with a smaller indentation leaves a questionnaire. -/
theorem AtL.leave_quiz {labels : List Str} {e f : Frame} {fs : List Frame} {ls : List Str} {i t : Nat} {x : Char} {r : Str} 
    (h : AtL labels E S os s (e :: f :: fs) ((spaces i ++ x :: r) :: ls) c) (hc : c ≤ 9) (he : e.st = .AplusQuestionnaire)
    (ht : e.data.bodyIndent = some t) (hx : isWs x = false) (hi : i + E.baseIndent < t) :
    LeadsL labels E S os s (f.add [e.shape] :: fs) ((spaces i ++ x :: r) :: ls) (c + 1) := by
  have hst : e.st ≠ .EOF ∧ e.st ≠ .Failure := by rw [he]; exact ⟨by simp, by simp⟩
  have htab : tableOf E e.st = .ok (quizTable E) := by rw [he]; exact tableOf_quiz E
  have hblank := blankLine_dead (indented_not_blank (t := r) hx i)
  have hpar : ∀ k, k ≠ t → ∃ y, parentIndentMatches s.ps.doc.sharedData k = .ok y ∧ y ≠ .justRight := by
    intro k hk
    have : s.ps.doc.sharedData.bodyIndent = some t := h.spine.indent ht
    unfold parentIndentMatches
    rw [this]
    refine ⟨_, rfl, ?_⟩
    split
    · simp
    · rw [if_neg (by omega)]; simp
  have hleave : ∀ (k : Nat) (p : P Moves), k ≠ t → atIndentOrLeave k p s.ps = leave s.ps := by
    intro k p hk
    obtain ⟨y, hy, hne⟩ := hpar k hk
    unfold atIndentOrLeave
    simp only [bind, P.bind, P.doc, P.lift, hy]
  obtain ⟨d', k1, k2, k3⟩ := h.spine.leave
  cases hm : reAplusQuestionnaireDirective.captures (spaces i ++ x :: r) with
  | some m =>
    have hg := question_indent hx hm
    refine h.left hc (n := s.ps.sectionLevel) htab hst (quiz_first hblank hm) ?_ k2 k3
    have hget : E.src[s.ps.cursor.relativeOffset]? = some (spaces i ++ x :: r) := by
      have := congrArg (·[0]?) h.here
      simpa using this
    unfold questionnaireDirective currentLine
    simp only [bind, P.bind, P.offset, hget, pure, P.pure, hg, List.length_replicate]
    rw [hleave _ _ (by omega)]
    exact k1
  | none =>
    obtain ⟨m, hm1, hm2⟩ := indented_text (t := r) hx i
    refine h.left hc (n := s.ps.sectionLevel) htab hst (quiz_second hblank hm hm1) ?_ k2 k3
    unfold questionnaireText
    simp only [hm2, List.length_replicate]
    rw [hleave _ _ (by omega)]
    exact k1

/-! ## The entries -/

theorem addPoints_zero (x : NodeType) : addPoints 0 x = x := by cases x <;> rfl

theorem Frame.earn_zero (f : Frame) : f.earn 0 = f := by unfold Frame.earn; rw [addPoints_zero]

/-- An entry of a questionnaire. -/
theorem AtL.entry {e : Entry} {i : Nat} {rest : List Str} (he : e.Ok) (hb : E.baseIndent = 0)
    (h : At E S os s (f :: fs) (e.lines i ++ rest) c) (hc : c ≤ 9) (hf : f.Quiz i) (hr : Low (i + 1) rest) :
    Leads E S os s ((f.earn e.points).add [e.shape i] :: fs) rest 0 := by
  cases e with
  | text g ps gap =>
    have := AtL.quizText he h hc hf
    show Leads E S os s ((f.earn 0).add _ :: fs) rest 0
    rw [Frame.earn_zero]; exact this
  | pick any d gap task cs H => exact AtL.question (any := any) (d := d) (gap := gap) he (.inl ⟨_, _, _, rfl⟩) hb h hc hf hr
  | free d p m gap task a H => exact AtL.question (any := true) (d := d) (gap := gap) he (.inr ⟨_, _, _, _, _, rfl⟩) hb h hc hf hr

theorem addPoints_add (p q : Nat) (x : NodeType) : addPoints q (addPoints p x) = addPoints (p + q) x := by
  cases x <;> simp [addPoints, Nat.add_assoc]

/-- The first line of an entry. -/
theorem entry_front {e : Entry} (he : e.Ok) (i : Nat) : ∃ x t ls, e.lines i = (spaces i ++ x :: t) :: ls ∧ isWs x = false := by
  cases e with
  | text g ps gap =>
    obtain ⟨l, ls, rfl⟩ := List.exists_cons_of_ne_nil he.1.notEmpty
    obtain ⟨x, t, rfl, hx⟩ := (he.1.lines l (by simp)).cons
    exact ⟨x, t, _, rfl, hx⟩
  | pick any d gap task cs H =>
    obtain ⟨x, t, e, hx⟩ := (front_dir he.1 i).visible
    exact ⟨x, t, _, by rw [← e]; rfl, hx⟩
  | free d p m gap task a H =>
    obtain ⟨x, t, e, hx⟩ := (front_dir he.1 i).visible
    exact ⟨x, t, _, by rw [← e]; rfl, hx⟩

/-- The entries of a questionnaire. -/
theorem AtL.entries {i : Nat} {rest : List Str} (hb : E.baseIndent = 0) (hr : Low (i + 1) rest) :
    ∀ {es : List Entry} {s : LoopState} {f : Frame}, (∀ e ∈ es, e.Ok) → At E S os s (f :: fs) (es.flatMap (Entry.lines i) ++ rest) 0 → f.Quiz i →
      Leads E S os s ((f.earn (es.map Entry.points).sum).add (es.map (Entry.shape i)) :: fs) rest 0
  | [], s, f, _, h, _ => by
    rw [List.map_nil, List.map_nil, List.sum_nil, Frame.earn_zero, Frame.add_nil]; exact h.leads
  | e :: es, s, f, he, h, hf => by
    rw [List.flatMap_cons, List.append_assoc] at h
    have hlow : Low (i + 1) (es.flatMap (Entry.lines i) ++ rest) := by
      cases es with
      | nil => exact hr
      | cons e' es =>
        obtain ⟨x, t, ls, e1, hx⟩ := entry_front (he e' (by simp)) i
        rw [List.flatMap_cons, e1]
        intro l hl
        obtain rfl : spaces i ++ x :: t = l := by simpa using hl
        exact ⟨indented_not_blank hx i, by rw [indentOf_indented hx]; omega⟩
    obtain ⟨s1, k1, k2⟩ := AtL.entry (he e (by simp)) hb h (by omega) hf hlow
    have := AtL.entries hb hr (fun x hx => he x (by simp [hx])) k2 (hf.next _ _)
    have e2 : (((f.earn e.points).add [e.shape i]).earn (es.map Entry.points).sum).add (es.map (Entry.shape i)) =
        (f.earn ((e :: es).map Entry.points).sum).add ((e :: es).map (Entry.shape i)) := by
      simp [Frame.earn, Frame.add, addPoints_add]
    rw [e2] at this
    exact k1.leads this

/-! ## The questionnaire -/

theorem dispatch_quiz (E : Env) (b k : Nat) (e : Bool) :
    dispatchDirective E (str! "questionnaire") b k e = parseQuestionnaire E b k e := rfl

/-- A questionnaire is opened. -/
theorem AtL.quiz {d : Dir} {a : Exercise} {gap rest : List Str} {l : Str} {i : Nat} (h0 : E.baseIndent = 0)
    (h : At E S os s (f :: fs) (d.lines i ++ (gap ++ l :: rest)) c) (hc : c ≤ 9) (hf : f.Body E i) (hd : d.Ok)
    (hkey : d.key = str! "questionnaire") (harg : d.arg = a.text) (ha : a.Ok) (hg : gap ≠ []) (hb : ∀ l ∈ gap, isBlank l = true)
    (hl : isBlank l = false) (hi : indentOf l = i + 3) :
    Leads E S os s (⟨.AplusQuestionnaire, quizNode d a 0 (i + 3), [], []⟩ :: f :: fs) (l :: rest) 0 := by
  have M : Enters E s.ps f (fs ++ os) i d (gap ++ l :: rest) :=
    ⟨⟨h.here, h.spine, by rw [h0]; exact hf.indent⟩, hd, .gap hg hb⟩
  have hbody : bodyOf E s.ps i d = i + 3 := by
    unfold bodyOf
    rw [subsequent_content h.here hb hl hi (fun _ => rfl)]; rfl
  have hs := M.scan
  rw [hbody] at hs
  obtain ⟨gap', hg', hdrop, hcount⟩ := behind_gap (r := l :: rest) hg M.here
  have hd2 := drop_incr h.here (1 + d.optionCount (gap ++ l :: rest))
  have hdrop' := hdrop
  unfold behindOptions at hdrop'
  rw [hdrop'] at hd2
  have hlen : 1 + d.optionCount (gap ++ l :: rest) ≤ (d.lines i ++ (gap ++ l :: rest)).length := by
    have : (d.lines i ++ (gap ++ l :: rest)).length = (d.lines i ++ gap).length + (l :: rest).length := by
      simp only [List.length_append]; omega
    omega
  have hne : d.arg ≠ [] := by
    rw [harg]
    intro e
    exact ha.key.1 (List.append_eq_nil_iff.mp (List.append_eq_nil_iff.mp (List.append_eq_nil_iff.mp e).1).1).1
  obtain ⟨d', h1, h2, h3⟩ := Spine.push (s := behindOptions s.ps d (gap ++ l :: rest)) h.spine (data := quizNode d a 0 (i + 3))
    .AplusQuestionnaire (hf.kids .AplusQuestionnaire (by decide)) simple_quiz rfl rfl h.calm
  have hres : bodyDirective E (directiveMatch d i) s.ps = .ok (.push [.AplusQuestionnaire], none)
      { behindOptions s.ps d (gap ++ l :: rest) with doc := d' } := by
    rw [M.dispatch, hkey, dispatch_quiz, hbody]
    simp only [parseQuestionnaire, bind, P.bind, hs.1, hs.2, Dir.args_some hne, P.required, pure, P.pure, Dir.optionOf, joinWith]
    simp only [harg, exercise_read ha]
    simp only [quizNode, Exercise.max] at h1
    have hlev : (if a.level.isEmpty then none else some a.level) = (if a.level = [] then none else some a.level) := by
      cases a.level <;> rfl
    rw [hlev]
    simp only [h1]
  have e : d.lines i ++ (gap ++ l :: rest) =
      indentLine i d.marker :: (d.opts.map (fun o => indentLine (i + 3) (optionLine o)) ++ (gap ++ l :: rest)) := rfl
  rw [e] at h hlen
  obtain ⟨ts, hts, hts'⟩ := hf.table
  have hstep := step_moved (h.stands hc) hts hf.notEnd ((hts' _ (noBreak_dir hd i)).trans (directive_transition E hd i).1) hres
    (stack := s.stack ++ [.AplusQuestionnaire]) rfl (k := 1 + d.optionCount (gap ++ l :: rest)) rfl (by omega) hlen
  rw [← e, ← hd2] at hstep
  have hnext : Leads E S os s (⟨.AplusQuestionnaire, quizNode d a 0 (i + 3), [], []⟩ :: f :: fs) (gap' ++ l :: rest) 0 := by
    refine ⟨_, .step hstep, ⟨hdrop', h2, ?_, Nat.le_refl _, h3.trans h.secs⟩⟩
    rw [h.stack_cons]; simp [stackFor]
  obtain ⟨s1, k1, k2⟩ := hnext
  exact k1.leads (k2.blanks (by simp [State.readable]) fun x hx => hb x (hg' x hx))

end
end Rustla
