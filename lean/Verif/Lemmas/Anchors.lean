import Verif.Lemmas.Runs
import Verif.Spec.Targets
/-! # Hyperlink targets in front of blocks -/
namespace Rustla
open Spec

theorem nameChar_cls {c : Char} : clsAlnumSpace c = true ↔ nameChar c := by
  have : clsAlnumSpace c = (clsAlnum c || c == ' ') := rfl
  rw [this, Bool.or_eq_true, alnum_cls, beq_iff_eq]; rfl

/-- The pattern of the further pieces of a name. -/
abbrev piecesRe : Re := .star true (.seq (.cls clsRefSep) (Re.plus true (.cls clsAlnumSpace)))

theorem pieces_caps {s : Str} {cs : Caps} {q : Str × Caps} (h : q ∈ piecesRe.run s cs) : q.2 = cs := by
  induction hn : s.length using Nat.strongRecOn generalizing s cs with
  | ind n ih =>
    rcases mem_star.mp h with rfl | ⟨r, hr, hlt, hq'⟩
    · rfl
    · obtain ⟨p, hp, hr⟩ := mem_seq.mp hr
      obtain ⟨c, t, rfl, hc, rfl⟩ := mem_cls.mp hp
      obtain ⟨h1, _⟩ := mem_plus_cls.mp hr
      rw [ih r.1.length (by rw [← hn]; exact hlt) hq' rfl, h1]

theorem pieces_mem {rest : List (Char × Str)} (h : ∀ p ∈ rest, p.1 ∈ separators ∧ p.2 ≠ [] ∧ ∀ c ∈ p.2, nameChar c) (s : Str) (cs : Caps) :
    (s, cs) ∈ piecesRe.run ((rest.map fun p => p.1 :: p.2).flatten ++ s) cs := by
  induction rest with
  | nil => exact mem_star.mpr (.inl rfl)
  | cons p rest ih =>
    obtain ⟨h1, h2, h3⟩ := h p (by simp)
    refine mem_star.mpr (.inr ⟨((rest.map fun p => p.1 :: p.2).flatten ++ s, cs), ?_, ?_, ih fun x hx => h x (by simp [hx])⟩)
    · exact mem_seq.mpr ⟨(p.2 ++ ((rest.map fun p => p.1 :: p.2).flatten ++ s), cs), mem_cls.mpr ⟨p.1, _, by simp, sep_cls.mpr h1, rfl⟩,
        mem_plus_cls.mpr ⟨rfl, p.2, h2, rfl, fun c hc => nameChar_cls.mpr (h3 c hc)⟩⟩
    · simp; omega

/-- The pattern of the name of a target. -/
abbrev targetRe : Re := .alt (.seq (.cls clsAlnum) (.seq (.star true (.cls clsAlnumSpace)) (.seq piecesRe (Re.plus true (.cls clsAlnum))))) (.chr '_')

theorem target_caps {s : Str} {cs : Caps} {q : Str × Caps} (h : q ∈ targetRe.run s cs) : q.2 = cs := by
  rcases mem_alt.mp h with h | h
  · obtain ⟨r1, h1, h⟩ := mem_seq.mp h
    obtain ⟨_, _, _, _, rfl⟩ := mem_cls.mp h1
    obtain ⟨r2, h2, h⟩ := mem_seq.mp h
    obtain ⟨e2, _⟩ := mem_star_cls.mp h2
    obtain ⟨r3, h3, h⟩ := mem_seq.mp h
    obtain ⟨e4, _⟩ := mem_plus_cls.mp h
    rw [e4, pieces_caps h3, e2]
  · obtain ⟨_, _, rfl⟩ := mem_chr.mp h
    rfl

/-- The name in the form of the pattern. -/
theorem target_split {t : Target} (h : t.Ok) : ∃ (c : Char) (u : Str) (rest : List (Char × Str)) (z : Char), t.name = c :: (u ++ ((rest.map fun p : Char × Str => p.1 :: p.2).flatten ++ [z])) ∧
    c.isAlphanum = true ∧ (∀ x ∈ u, nameChar x) ∧ (∀ p ∈ rest, p.1 ∈ separators ∧ p.2 ≠ [] ∧ ∀ c ∈ p.2, nameChar c) ∧ z.isAlphanum = true := by
  obtain ⟨c, w, hc, hcc⟩ := h.start
  obtain ⟨hlen, z, hz, hza⟩ := h.final
  have hw : ∀ x ∈ w, nameChar x := fun x hx => h.first x (by rw [hc]; simp [hx])
  rcases List.eq_nil_or_concat t.rest with hr | ⟨init, p, hr⟩
  · have hf : t.final = c :: w := by simp [Target.final, hr, hc]
    rw [hf] at hlen hz
    rcases List.eq_nil_or_concat w with rfl | ⟨u, z', rfl⟩
    · simp at hlen
    · obtain rfl : z' = z := by simpa [List.getLast?_cons] using hz
      exact ⟨c, u, [], z', by simp [Target.name, hr, hc], hcc, fun x hx => hw x (by simp [hx]), by simp, hza⟩
  · have hf : t.final = p.2 := by simp [Target.final, hr]
    rw [hf] at hlen hz
    obtain ⟨hp1, hp2, hp3⟩ := h.rest p (by rw [hr]; simp)
    rcases List.eq_nil_or_concat p.2 with he | ⟨u, z', he⟩
    · exact absurd he hp2
    · obtain rfl : z' = z := by simpa [he] using hz
      refine ⟨c, w, init ++ [(p.1, u)], z', by simp [Target.name, hr, hc, he], hcc, hw, ?_, hza⟩
      intro x hx
      rcases List.mem_append.mp hx with hx | hx
      · exact h.rest x (by rw [hr]; simp [hx])
      · obtain rfl := List.mem_singleton.mp hx
        refine ⟨hp1, ?_, fun y hy => hp3 y (by rw [he]; simp [hy])⟩
        rintro rfl
        rw [he] at hlen; simp at hlen

theorem target_mem {t : Target} (h : t.Ok) (s : Str) (cs : Caps) : (s, cs) ∈ targetRe.run (t.name ++ s) cs := by
  obtain ⟨c, u, rest, z, e, hc, hu, hr, hz⟩ := target_split h
  refine mem_alt.mpr (.inl (mem_seq.mpr ⟨(u ++ ((rest.map fun p : Char × Str => p.1 :: p.2).flatten ++ ([z] ++ s)), cs), ?_, ?_⟩))
  · exact mem_cls.mpr ⟨c, _, by rw [e]; simp, alnum_cls.mpr hc, rfl⟩
  · exact mem_seq.mpr ⟨((rest.map fun p : Char × Str => p.1 :: p.2).flatten ++ ([z] ++ s), cs),
      mem_star_cls.mpr ⟨rfl, u, rfl, fun x hx => nameChar_cls.mpr (hu x hx)⟩,
      mem_seq.mpr ⟨([z] ++ s, cs), pieces_mem hr _ _, mem_plus_cls.mpr ⟨rfl, [z], by simp, rfl, by simpa using alnum_cls.mpr hz⟩⟩⟩

/-- A colon in the name of a target is not followed by a space. -/
theorem target_colon {t : Target} (h : t.Ok) {a b : Str} : t.name ≠ a ++ ':' :: ' ' :: b := by
  have noColon : ∀ {w : Str}, (∀ c ∈ w, nameChar c) → ':' ∉ w := by
    intro w hw hm
    rcases hw _ hm with h | h
    · exact absurd h (by decide)
    · exact absurd h (by decide)
  have key : ∀ (rest : List (Char × Str)), (∀ p ∈ rest, p.1 ∈ separators ∧ p.2 ≠ [] ∧ ∀ c ∈ p.2, nameChar c) →
      (∀ p ∈ rest, p.1 = ':' → p.2.head? ≠ some ' ') → ∀ a b, (rest.map fun p => p.1 :: p.2).flatten ≠ a ++ ':' :: ' ' :: b := by
    intro rest
    induction rest with
    | nil => intro _ _ a b e; simp at e
    | cons p rest ih =>
      intro h1 h2 a b e
      obtain ⟨q1, q2, q3⟩ := h1 p (by simp)
      have hih := ih (fun x hx => h1 x (by simp [hx])) (fun x hx => h2 x (by simp [hx]))
      rw [List.map_cons, List.flatten_cons, List.append_eq_append_iff] at e
      rcases e with ⟨x, hx, e⟩ | ⟨x, hx, e⟩
      · exact hih _ _ e
      · cases x with
        | nil => exact hih [] b (by simpa using e.symm)
        | cons y x =>
          obtain ⟨rfl, e⟩ : ':' = y ∧ ' ' :: b = x ++ (rest.map fun p => p.1 :: p.2).flatten := by simpa using e
          cases a with
          | nil =>
            obtain ⟨e1, e2⟩ : p.1 = ':' ∧ p.2 = x := by simpa using hx
            apply h2 p (by simp) e1
            rw [e2]
            cases x with
            | nil => exact absurd e2 q2
            | cons y x => simp at e; rw [e.1]; rfl
          | cons a' a =>
            obtain ⟨_, e2⟩ : p.1 = a' ∧ p.2 = a ++ ':' :: x := by simpa using hx
            exact noColon q3 (by rw [e2]; simp)
  intro e
  unfold Target.name at e
  rw [List.append_eq_append_iff] at e
  rcases e with ⟨x, hx, e⟩ | ⟨x, hx, e⟩
  · exact key _ h.rest h.colon _ _ e
  · cases x with
    | nil => exact key _ h.rest h.colon [] b (by simpa using e.symm)
    | cons y x =>
      obtain ⟨rfl, _⟩ : ':' = y ∧ _ := by simpa using e
      exact noColon h.first (by rw [hx]; simp)

/-- The match of a target. -/
def targetMatch (t : Target) (i : Nat) : Match := ⟨indentLine i t.line, [], [(.g2, t.name), (.g1, spaces i)]⟩

theorem target_line (t : Target) (i : Nat) : indentLine i t.line = spaces i ++ '.' :: '.' :: ' ' :: '_' :: (t.name ++ [':']) := by
  simp [Target.line, spaces, indentLine]

theorem target_captures {t : Target} (h : t.Ok) (i : Nat) : reHyperlinkTarget.captures (indentLine i t.line) = some (targetMatch t i) := by
  have key : ∀ q, q ∈ reHyperlinkTarget.run (indentLine i t.line) [] ↔ q = ([], [(.g2, t.name), (.g1, spaces i)]) := by
    intro q
    unfold reHyperlinkTarget
    rw [target_line, run_seq_spaces (dots_space _) (by decide), dots_mem, dots_mem_one (by decide), mem_seq]
    constructor
    · rintro ⟨r, hr, hq⟩
      obtain ⟨t1, e1, rfl⟩ := mem_chr.mp hr
      simp only [List.cons.injEq, true_and] at e1
      subst e1
      obtain ⟨r2, hr2, hq⟩ := mem_seq.mp hq
      obtain ⟨m, r3, e3, hr3, rfl⟩ := mem_cap.mp hr2
      have ec := target_caps hr3
      obtain ⟨r4, hr4, hq⟩ := mem_seq.mp hq
      obtain ⟨t4, e4, rfl⟩ := mem_chr.mp hr4
      dsimp only at e3 e4 hq
      rw [e4] at e3
      rcases mem_alt.mp hq with hq | hq
      · exfalso
        obtain ⟨_, n, e5⟩ := mem_plus_chr.mp hq
        rw [e5, List.replicate_succ] at e3
        rcases List.eq_nil_or_concat q.1 with hq1 | ⟨q', z, hq1⟩
        · have := congrArg List.getLast? e3
          have e6 : m ++ ':' :: (' ' :: List.replicate n ' ' ++ q.1) = (m ++ ':' :: List.replicate n ' ') ++ [' '] := by
            rw [hq1, ← List.replicate_succ, List.replicate_succ']; simp
          rw [e6, List.getLast?_concat, List.getLast?_concat] at this
          exact absurd this (by decide)
        · rw [hq1] at e3
          have e6 : m ++ ':' :: (' ' :: List.replicate n ' ' ++ q'.concat z) = (m ++ ':' :: ' ' :: (List.replicate n ' ' ++ q')) ++ [z] := by simp
          rw [e6] at e3
          exact target_colon h (List.append_inj_left' e3 rfl)
      · obtain ⟨e5, e6⟩ := mem_eos.mp hq
        subst e5
        have : m = t.name := (List.append_inj_left' e3 rfl).symm
        rw [e6, this, ec]
    · rintro rfl
      refine ⟨_, mem_chr.mpr ⟨_, rfl, rfl⟩, mem_seq.mpr ⟨([':'], (.g2, t.name) :: [(.g1, spaces i)]), ?_, ?_⟩⟩
      · exact mem_cap.mpr ⟨t.name, ([':'], [(.g1, spaces i)]), rfl, target_mem h _ _, rfl⟩
      · exact mem_seq.mpr ⟨([], _), mem_chr.mpr ⟨_, rfl, rfl⟩, mem_alt.mpr (.inr (mem_eos.mpr ⟨rfl, rfl⟩))⟩
  have := captures_of_unique (w := indentLine i t.line) (s := []) (r := reHyperlinkTarget) (cs := [(.g2, t.name), (.g1, spaces i)])
    (by rw [List.append_nil]; exact (key _).mpr rfl) fun q hq => (key q).mp (by rwa [List.append_nil] at hq)
  rwa [List.append_nil] at this

theorem target_text (t : Target) : t.line = str! ".. " ++ ('_' :: (t.name ++ [':'])) := by simp [Target.line]

theorem unmarked_target (t : Target) (i : Nat) : Unmarked (indentLine i t.line) := by
  rw [target_text]; exact unmarked_dots i _

/-- What the line of a target does in the body of a document and in a list. -/
theorem target_transition (E : Env) {t : Target} (h : t.Ok) (i : Nat) :
    (∀ st : State, st.listing → firstTransition (indentLine i t.line) (listTable E st) = none) ∧
    firstTransition (indentLine i t.line) (bodyTable E) = some (targetMatch t i, bodyHyperlinkTarget E) := by
  have hw : isWs '.' = false := by decide
  have hun := unmarked_target t i
  have hbl := indented_not_blank (t := '.' :: ' ' :: '_' :: (t.name ++ [':'])) hw i
  rw [← target_line] at hbl
  have hbl' := blankLine_dead hbl
  have hdead : ∀ {g : Grp} {r : Re}, (Re.seq (.cap g (.star true (.cls isWs))) (.seq (Re.lit (str! "..")) (.seq (Re.plus true (.chr ' ')) (.seq (.chr '[') r)))).captures
      (indentLine i t.line) = none := by
    intro g r
    rw [Re.captures_none_iff, List.eq_nil_iff_forall_not_mem]
    intro q hq
    rw [target_line, run_seq_spaces (dots_space _) (by decide), dots_mem, dots_mem_one (by decide)] at hq
    obtain ⟨r, hr, _⟩ := mem_seq.mp hq
    obtain ⟨_, e, _⟩ := mem_chr.mp hr
    simp at e
  refine ⟨fun st hst => hst.unmarked E hun hbl, ?_⟩
  obtain ⟨h1, h2, h3⟩ := hun
  simp only [firstTransition, bodyTable, bodyRest, hbl', h1, h2, h3, show reFootnote.captures (indentLine i t.line) = none from hdead,
    show reCitation.captures (indentLine i t.line) = none from hdead, target_captures h i]

/-- What is done with a target at the right indentation. -/
def targetAct (E : Env) (t : Target) (i body : Nat) : P Moves := do
  let (lines, _) ← P.indentedBlock E true (some body) (some (indentLine i t.line).length) false
  let block := (joinWith ['\n'] lines).filter fun c => !isWs c
  if block.isEmpty then do
    P.internalTarget t.label
    pure (PushOrPop.neither, some 1)
  else do
    let node ← targetContent i t.label block
    P.pushNode node
    pure (PushOrPop.neither, some 1)

theorem target_acts (E : Env) {t : Target} (h : t.Ok) (i : Nat) (ps : PS) :
    bodyHyperlinkTarget E (targetMatch t i) ps = atIndent i
      (targetAct E t i (targetIndent E i (indentLine i t.line).length ps.cursor.relativeOffset)) ps := by
  have hne : t.name ≠ str! "_" := by
    obtain ⟨c, w, hc, ha⟩ := h.start
    intro e
    unfold Target.name at e
    rw [hc] at e
    obtain ⟨rfl, _⟩ : c = '_' ∧ _ := by simpa using e
    exact absurd ha (by decide)
  have e1 : (targetMatch t i).getD .g2 = t.name := rfl
  have e2 : (targetMatch t i).getD .g1 = spaces i := rfl
  have e3 : (targetMatch t i).whole = indentLine i t.line := rfl
  unfold bodyHyperlinkTarget targetAct targetLabel
  simp only [e1, e2, e3, hne, if_false, List.length_replicate, bind, P.bind, pure, P.pure, P.offset, Target.label]

/-- Blank lines or lines that do not belong to the content of a target. -/
def Margin (i : Nat) (rest : List Str) : Prop := ∀ l, rest.head? = some l → isBlank l = true ∨ indentOf l ≤ i

theorem Low.margin {i : Nat} {rest : List Str} (h : Low (i + 1) rest) : Margin i rest := fun l hl => .inr (by have := (h l hl).2; omega)

theorem margin_gap {i : Nat} {gap rest : List Str} (hg : ∀ l ∈ gap, isBlank l = true) (h : Margin i rest) : Margin i (gap ++ rest) := by
  cases gap with
  | nil => exact h
  | cons g gap =>
    intro l hl
    obtain rfl : g = l := by simpa using hl
    exact .inl (hg _ (by simp))

/-- A target without content is noted for the next node. -/
theorem targetAct_notes {E : Env} (h0 : E.baseIndent = 0) {t : Target} {i : Nat} {ps : PS} {rest : List Str}
    (hsrc : E.src.drop ps.cursor.relativeOffset = indentLine i t.line :: rest) (hr : Margin i rest) :
    targetAct E t i (targetIndent E i (indentLine i t.line).length ps.cursor.relativeOffset) ps =
      .ok (.neither, some 1) { ps with doc := ps.doc.pushInternalTarget t.label } := by
  have hnext : E.src[ps.cursor.relativeOffset + 1]? = rest.head? := by
    have := congrArg (·[1]?) hsrc
    rw [List.head?_eq_getElem?]
    simpa using this
  have hind : targetIndent E i (indentLine i t.line).length ps.cursor.relativeOffset = (indentLine i t.line).length := by
    unfold targetIndent
    rw [hnext]
    cases hh : rest.head? with
    | none => rfl
    | some l =>
      rcases hr l hh with h | h
      · simp [h]
      · have : indentOf l + E.baseIndent < i + 3 := by omega
        simp [this]
  have hpos : i < (indentLine i t.line).length := by simp [Target.line, indentLine]
  generalize hn : (indentLine i t.line).length = n at hpos hind ⊢
  have hne : E.src.isEmpty = false := by
    cases hE : E.src with
    | nil => rw [hE] at hsrc; simp at hsrc
    | cons => rfl
  have hlen : ¬ E.src.length < ps.cursor.relativeOffset := by
    intro hlt
    rw [List.drop_eq_nil_of_le (by omega)] at hsrc
    simp at hsrc
  have hloop : (readIndentedLoop true (some n) false rest (some (indentLine i t.line)) (some n)).lines = [] ∧
      (readIndentedLoop true (some n) false rest (some (indentLine i t.line)) (some n)).minimal = some n := by
    cases rest with
    | nil => exact ⟨rfl, rfl⟩
    | cons l rest =>
      cases hb : isBlank l with
      | true => simp [readIndentedLoop, hb]
      | false =>
        rcases hr l rfl with h | h
        · rw [hb] at h; cases h
        · have hal : breakWhenNotAligned (some n) false (indentOf l) = true := by simp [breakWhenNotAligned]; omega
          simp [readIndentedLoop, hb, hal]
  have hblock : P.indentedBlock E true (some n) (some n) false ps = .ok ([[]], 1) ps := by
    have hd : (indentLine i t.line).drop n = [] := List.drop_eq_nil_of_le (by omega)
    simp only [P.indentedBlock, readIndentedBlock, hne, Bool.false_eq_true, if_false, hlen, Option.or, hsrc, hloop.1, hloop.2, if_true, stripBlock,
      hd, List.map_nil, List.length_singleton]
  rw [hind]
  unfold targetAct
  simp only [bind, P.bind, hn, hblock]
  rfl

theorem target_visible (t : Target) (i : Nat) : ∃ x r, indentLine i t.line = spaces i ++ x :: r ∧ isWs x = false :=
  ⟨'.', _, target_line t i, by decide⟩

theorem target_noBreak (t : Target) (i : Nat) (st : State) : NoBreak st (indentLine i t.line) := by
  rw [target_text]; exact noBreak_dots i _

/-- The lines of targets start like a block, unless they are read by a parser with an indentation of its own. -/
theorem starts_target {E : Env} (h0 : E.baseIndent = 0) {t : Target} (h : t.Ok) (i : Nat) (rest : List Str) :
    Starts E i none (indentLine i t.line :: rest) := by
  refine .other (target_visible t i) (fun _ => target_noBreak t i _) (unmarked_target t i) fun ps _ => ?_
  refine ⟨_, _, targetAct E t i (targetIndent E i (indentLine i t.line).length ps.cursor.relativeOffset), (target_transition E h i).2, ?_⟩
  rw [target_acts E h, h0]; rfl

/-- A target at the indentation of the focused node. -/
theorem AtL.target {labels : List Str} {E : Env} {S : SectionData} {os : List Frame} {s : LoopState} {f : Frame} {fs : List Frame} {c i : Nat}
    {t : Target} {rest : List Str} (h0 : E.baseIndent = 0) (ht : t.Ok) (hr : Margin i rest)
    (h : AtL labels E S os s (f :: fs) (indentLine i t.line :: rest) c) (hc : c ≤ 9)
    (hf : f.Body E i) : LeadsL (labels ++ [t.label]) E S os s (f :: fs) rest 0 := by
  obtain ⟨_, e3⟩ := target_transition E ht i
  obtain ⟨ts, hts, hts'⟩ := hf.table
  have hmove : bodyHyperlinkTarget E (targetMatch t i) s.ps = .ok (.neither, some 1) { s.ps with doc := s.ps.doc.pushInternalTarget t.label } := by
    rw [target_acts E ht, atIndent_right h.spine hf.indent, targetAct_notes h0 h.here hr]
  have hstep := step_moved (h.stands hc) hts hf.notEnd ((hts' _ (target_noBreak t i _)).trans e3) hmove (stack := s.stack) rfl (k := 1) rfl (by omega)
    (by simp)
  refine ⟨_, .step hstep, ⟨drop_incr h.here 1, h.spine, ?_, Nat.le_refl _, ?_⟩⟩
  · rw [h.stack_cons]; simp [stackFor]
  · show (s.ps.doc.pushInternalTarget t.label).notes = _
    have e1 := h.pending
    have e2 := h.levels
    simp only [DocTree.notes, DocTree.pushInternalTarget, e1, e2]

theorem targetsAt_cons (i : Nat) (t : Target) (ts : List Target) (rest : List Str) :
    targetsAt i (t :: ts) ++ rest = indentLine i t.line :: (t.gap ++ (targetsAt i ts ++ rest)) := by
  simp [targetsAt]

/-- Targets at the indentation of the focused node. -/
theorem AtL.targets {E : Env} {S : SectionData} {os : List Frame} {f : Frame} {fs : List Frame} {i : Nat} {rest : List Str} (h0 : E.baseIndent = 0)
    (hf : f.Body E i) (hr : Margin i rest) : ∀ (ts : List Target) {labels : List Str} {s : LoopState} {c : Nat}, (∀ t ∈ ts, t.Ok) → ts ≠ [] →
      AtL labels E S os s (f :: fs) (targetsAt i ts ++ rest) c → c ≤ 9 → LeadsL (labels ++ ts.map Target.label) E S os s (f :: fs) rest 0
  | [], _, _, _, _, hne, _, _ => absurd rfl hne
  | t :: ts, labels, s, c, hok, _, h, hc => by
    rw [targetsAt_cons] at h
    have hloose : Margin i (targetsAt i ts ++ rest) := by
      cases ts with
      | nil => exact hr
      | cons t' ts =>
        rw [targetsAt_cons]
        intro l hl
        obtain rfl : indentLine i t'.line = l := by simpa using hl
        exact .inr (Nat.le_of_eq (front_target t' i).indent)
    obtain ⟨s1, k1, k2⟩ := h.target h0 (hok t (by simp)) (margin_gap (hok t (by simp)).gap hloose) hc hf
    obtain ⟨s2, k3, k4⟩ := k2.blanks hf.readable (hok t (by simp)).gap
    cases ts with
    | nil => exact (k1.trans k3).leads k4.leads
    | cons t' ts =>
      have := AtL.targets h0 hf hr (t' :: ts) (fun x hx => hok x (by simp [hx])) (by simp) k4 (by omega)
      rw [List.append_assoc] at this
      exact (k1.trans k3).leads this

end Rustla
