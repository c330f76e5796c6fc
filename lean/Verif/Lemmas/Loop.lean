import Verif.Model.ParserLoop
/-! # Rounds of the main loop -/
namespace Rustla

theorem firstTransition_mem {line : Str} {ts : List (Re × Transition)} {m : Match} {f : Transition}
    (h : firstTransition line ts = some (m, f)) : ∃ r, (r, f) ∈ ts ∧ r.captures line = some m := by
  induction ts with
  | nil => simp [firstTransition] at h
  | cons t ts ih =>
    obtain ⟨r, g⟩ := t
    rw [firstTransition] at h
    cases hc : r.captures line with
    | none =>
      rw [hc] at h
      obtain ⟨r', h1, h2⟩ := ih h
      exact ⟨r', List.mem_cons_of_mem _ h1, h2⟩
    | some m' =>
      rw [hc] at h
      simp only [Option.some.injEq, Prod.mk.injEq] at h
      obtain ⟨rfl, rfl⟩ := h
      exact ⟨r, List.mem_cons_self, hc⟩

/-- The end of a round as a function on the state. -/
def closeRound (M : Machine) (s : LoopState) : LoopState :=
  if s.ps.cursor.relativeOffset ≥ M.src.length then { s with stack := s.stack ++ [.EOF] } else s

theorem endRound_eq (M : Machine) (s : LoopState) : endRound M s = .next (closeRound M s) := by
  unfold endRound closeRound; split <;> rfl

/-- State after a successful transition, before the end of the round. -/
def movedState (s : LoopState) (stack : List State) (adv : LineAdvance) (ps : PS) : LoopState :=
  let cursor := applyAdvance ps.cursor adv
  if cursor.sumTotal = s.ps.cursor.sumTotal then
    { ps := { ps with cursor := cursor }, stack := stack, changed := false, count := s.count + 1 }
  else { ps := { ps with cursor := cursor }, stack := stack, changed := true, count := 0 }

/-- State after leaving a state without a match, before the end of the round. -/
def leftState (s : LoopState) (d : DocTree) : LoopState :=
  { s with ps := { s.ps with doc := d }, stack := s.stack.dropLast, changed := false }

/-- What a round that goes on has done. -/
inductive StepCase (M : Machine) (s s' : LoopState) : Prop where
  | moved (st : State) (ts : List (Re × Transition)) (line : Str) (m : Match) (f : Transition) (pp : PushOrPop)
      (adv : LineAdvance) (ps : PS) (stack : List State)
      (hst : s.stack.getLast? = some st) (h1 : st ≠ .EOF) (h2 : st ≠ .Failure) (ht : M.table st = .ok ts)
      (hline : M.src[s.ps.cursor.offset]? = some line) (hf : firstTransition line ts = some (m, f))
      (hr : f m s.ps = .ok (pp, adv) ps) (hpp : applyPushOrPop s.stack pp = .ok stack)
      (he : s' = closeRound M (movedState s stack adv ps))
  | left (st : State) (ts : List (Re × Transition)) (d : DocTree)
      (hst : s.stack.getLast? = some st) (h1 : st ≠ .EOF) (h2 : st ≠ .Failure) (ht : M.table st = .ok ts)
      (hn : ts = [] ∨ ∃ line, M.src[s.ps.cursor.offset]? = some line ∧ firstTransition line ts = none)
      (hd : s.ps.doc.focusOnParent = .ok d) (he : s' = closeRound M (leftState s d))

theorem noMatch_next {M : Machine} {s s' : LoopState} (h : noMatch M s = .ok (.next s')) :
    ∃ d, s.ps.doc.focusOnParent = .ok d ∧ s' = closeRound M (leftState s d) := by
  unfold noMatch at h
  cases hd : s.ps.doc.focusOnParent with
  | error p => simp [hd, bind, Except.bind] at h
  | ok d =>
    simp only [hd, bind, Except.bind, pure, Except.pure, endRound_eq, Except.ok.injEq, Round.next.injEq] at h
    exact ⟨d, rfl, h.symm⟩

theorem afterTransition_next {M : Machine} {s s' : LoopState} {pp : PushOrPop} {adv : LineAdvance} {ps : PS}
    (h : afterTransition M s pp adv ps = .ok (.next s')) :
    ∃ stack, applyPushOrPop s.stack pp = .ok stack ∧ s' = closeRound M (movedState s stack adv ps) := by
  unfold afterTransition at h
  cases hs : applyPushOrPop s.stack pp with
  | error p => simp [hs, bind, Except.bind] at h
  | ok stack =>
    refine ⟨stack, rfl, ?_⟩
    unfold movedState
    simp only [hs, bind, Except.bind, pure, Except.pure] at h
    split at h
    · rename_i hc
      simp only [endRound_eq, Except.ok.injEq, Round.next.injEq] at h
      simp only [if_pos hc]; exact h.symm
    · rename_i hc
      simp only [endRound_eq, Except.ok.injEq, Round.next.injEq] at h
      simp only [if_neg hc]; exact h.symm

theorem afterTransition_not_done {M : Machine} {s : LoopState} {r : ParsingResult} {pp : PushOrPop} {adv : LineAdvance}
    {ps : PS} (h : afterTransition M s pp adv ps = .ok (.done r)) : False := by
  unfold afterTransition at h
  cases hs : applyPushOrPop s.stack pp with
  | error p => simp [hs, bind, Except.bind] at h
  | ok stack =>
    simp only [hs, bind, Except.bind, pure, Except.pure] at h
    split at h <;> simp [endRound_eq] at h

theorem noMatch_not_done {M : Machine} {s : LoopState} {r : ParsingResult} (h : noMatch M s = .ok (.done r)) : False := by
  unfold noMatch at h
  cases hd : s.ps.doc.focusOnParent with
  | error p => simp [hd, bind, Except.bind] at h
  | ok d => simp [hd, bind, Except.bind, pure, Except.pure, endRound_eq] at h

theorem runTable_next {M : Machine} {s s' : LoopState} {ts : List (Re × Transition)} {st : State}
    (h : runTable M s ts = .ok (.next s')) (hst : s.stack.getLast? = some st) (h1 : st ≠ .EOF) (h2 : st ≠ .Failure)
    (ht : M.table st = .ok ts) : StepCase M s s' := by
  cases ts with
  | nil =>
    obtain ⟨d, hd, he⟩ := noMatch_next h
    exact .left st [] d hst h1 h2 ht (.inl rfl) hd he
  | cons t ts =>
    simp only [runTable] at h
    cases hl : M.src[s.ps.cursor.relativeOffset]? with
    | none => simp [hl] at h
    | some line =>
      simp only [hl] at h
      cases hf : firstTransition line (t :: ts) with
      | none =>
        simp only [hf] at h
        obtain ⟨d, hd, he⟩ := noMatch_next h
        exact .left st _ d hst h1 h2 ht (.inr ⟨line, hl, hf⟩) hd he
      | some p =>
        obtain ⟨m, f⟩ := p
        simp only [hf] at h
        cases hr : f m s.ps with
        | fail d => simp [hr] at h
        | panic p => simp [hr] at h
        | ok v ps =>
          obtain ⟨pp, adv⟩ := v
          simp only [hr] at h
          obtain ⟨stack, hpp, he⟩ := afterTransition_next h
          exact .moved st _ line m f pp adv ps stack hst h1 h2 ht hl hf hr hpp he

/-- Every round that goes on is a matching transition or leaves a state without a match. -/
theorem step_cases {M : Machine} {s s' : LoopState} (h : parseStep M s = .ok (.next s')) :
    ¬ (s.changed = false ∧ s.count ≥ 10) ∧ StepCase M s s' := by
  unfold parseStep at h
  split at h
  · simp at h
  · rename_i hc
    refine ⟨hc, ?_⟩
    split at h
    · simp at h
    · simp at h
    · simp at h
    · rename_i st hne1 hne2 hst
      cases ht : M.table st with
      | error p => simp [ht, bind, Except.bind] at h
      | ok ts =>
        simp only [ht, bind, Except.bind] at h
        exact runTable_next h hst hne1 hne2 ht

/-- How a round can end the parse. -/
inductive DoneCase (M : Machine) (s : LoopState) : ParsingResult → Prop where
  | stuck : s.changed = false → s.count ≥ 10 → DoneCase M s (.failure s.ps.doc)
  | empty : s.stack = [] → DoneCase M s (.emptyStateStack s.ps.doc [])
  | eof : s.stack.getLast? = some .EOF → DoneCase M s (.eof s.ps.doc s.stack.dropLast)
  | failed : s.stack.getLast? = some .Failure → DoneCase M s (.failure s.ps.doc)
  | noLine (st : State) : s.stack.getLast? = some st → M.src.length ≤ s.ps.cursor.offset → DoneCase M s (.failure s.ps.doc)
  | transition (st : State) (ts : List (Re × Transition)) (line : Str) (m : Match) (f : Transition) (d : DocTree)
      (hst : s.stack.getLast? = some st) (ht : M.table st = .ok ts)
      (hline : M.src[s.ps.cursor.offset]? = some line) (hf : firstTransition line ts = some (m, f))
      (hr : f m s.ps = .fail d) : DoneCase M s (.failure d)

theorem done_cases {M : Machine} {s : LoopState} {r : ParsingResult} (h : parseStep M s = .ok (.done r)) :
    DoneCase M s r := by
  unfold parseStep at h
  split at h
  · rename_i hc
    simp only [Except.ok.injEq, Round.done.injEq] at h; subst h
    exact .stuck hc.1 hc.2
  · split at h
    · rename_i hst
      simp only [Except.ok.injEq, Round.done.injEq] at h; subst h
      exact .empty (by simpa using hst)
    · rename_i hst
      simp only [Except.ok.injEq, Round.done.injEq] at h; subst h
      exact .eof hst
    · rename_i hst
      simp only [Except.ok.injEq, Round.done.injEq] at h; subst h
      exact .failed hst
    · rename_i st hne1 hne2 hst
      cases ht : M.table st with
      | error p => simp [ht, bind, Except.bind] at h
      | ok ts =>
        simp only [ht, bind, Except.bind] at h
        cases ts with
        | nil => exact (noMatch_not_done h).elim
        | cons t ts =>
          simp only [runTable] at h
          cases hl : M.src[s.ps.cursor.relativeOffset]? with
          | none =>
            simp only [hl, Except.ok.injEq, Round.done.injEq] at h; subst h
            exact .noLine st hst (by simpa [LineCursor.relativeOffset] using hl)
          | some line =>
            simp only [hl] at h
            cases hf : firstTransition line (t :: ts) with
            | none => simp only [hf] at h; exact (noMatch_not_done h).elim
            | some p =>
              obtain ⟨m, f⟩ := p
              simp only [hf] at h
              cases hr : f m s.ps with
              | panic p => simp [hr] at h
              | fail d =>
                simp only [hr, Except.ok.injEq, Round.done.injEq] at h; subst h
                exact .transition st _ line m f d hst ht hl hf hr
              | ok v ps =>
                obtain ⟨pp, adv⟩ := v
                simp only [hr] at h
                exact (afterTransition_not_done h).elim

end Rustla
