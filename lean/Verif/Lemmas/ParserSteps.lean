import Verif.Lemmas.Transitions
import Verif.Props.Loop
/-! # Documents that the parser builds -/
namespace Rustla
open Relation

/-- What holds in every round of a parser: the document is built from the one it started with, the cursor does not move
back and the stack holds states with a table of transitions, possibly below `EOF`. -/
structure Running (s0 : PS) (s : LoopState) : Prop where
  fwd : Fwd s0 s.ps
  live : ∃ rest, (∀ st ∈ rest, st.live = true) ∧ (s.stack = rest ∨ s.stack = rest ++ [.EOF])

theorem running_close {M : Machine} {s0 : PS} {s : LoopState} (hf : Fwd s0 s.ps) (hl : ∀ st ∈ s.stack, st.live = true) :
    Running s0 (closeRound M s) := by
  rcases closeRound_cases M s with ⟨_, _, h⟩ | ⟨h, _⟩
  · rw [h]; exact ⟨hf, s.stack, hl, .inr rfl⟩
  · rw [h]; exact ⟨hf, s.stack, hl, .inl rfl⟩

theorem running_stack {s0 : PS} {s : LoopState} (h : Running s0 s) (hne : s.stack.getLast? ≠ some .EOF) :
    ∀ st ∈ s.stack, st.live = true := by
  obtain ⟨rest, h1, h2 | h2⟩ := h.live
  · rw [h2]; exact h1
  · rw [h2] at hne; simp at hne

theorem applyPushOrPop_live {old new : List State} {pp : PushOrPop} {adv : LineAdvance}
    (h : applyPushOrPop old pp = .ok new) (ho : ∀ st ∈ old, st.live = true) (hm : MovesOk (pp, adv)) :
    ∀ st ∈ new, st.live = true := by
  cases pp with
  | push l =>
    simp only [applyPushOrPop, Except.ok.injEq] at h; subst h
    intro st hst
    rcases List.mem_append.1 hst with h | h
    · exact ho st h
    · exact hm l rfl st h
  | pop =>
    simp only [applyPushOrPop] at h
    split at h
    · simp at h
    · simp only [Except.ok.injEq] at h; subst h
      exact fun st hst => ho st (List.dropLast_subset _ hst)
  | neither => simp only [applyPushOrPop, Except.ok.injEq] at h; subst h; exact ho

theorem fwd_advance (ps : PS) (adv : LineAdvance) : Fwd ps { ps with cursor := applyAdvance ps.cursor adv } :=
  ⟨(offset_applyAdvance ps.cursor adv).1, (offset_applyAdvance ps.cursor adv).2, ReflTransGen.refl⟩

theorem running_step {E : Env} (hE : NestOk E) {s0 : PS} {s s' : LoopState} (hr : Running s0 s)
    (h : LoopStep (machineOf E) s s') : Running s0 s' := by
  obtain ⟨_, h⟩ := step_cases h
  cases h with
  | moved st ts line m f pp adv ps stack hst h1 h2 ht hline hf hr' hpp he =>
    subst he
    have hne : s.stack.getLast? ≠ some .EOF := by rw [hst]; simpa using h1
    have hl := running_stack hr hne
    obtain ⟨r, hmem, _⟩ := firstTransition_mem hf
    obtain ⟨e1, e2⟩ := (table_good hE ht (r, f) hmem m s.ps).1 _ _ hr'
    refine running_close ?_ ?_
    · have := (hr.fwd.trans e1).trans (fwd_advance ps adv)
      constructor
      · rw [movedState_cursor]; exact this.offset
      · rw [movedState_cursor]; exact this.baseline
      · rw [movedState_doc]; exact this.steps
    · rw [movedState_stack]
      exact applyPushOrPop_live hpp hl e2
  | left st ts d hst h1 h2 ht hn hd he =>
    subst he
    have hne : s.stack.getLast? ≠ some .EOF := by rw [hst]; simpa using h1
    have hl := running_stack hr hne
    refine running_close ?_ ?_
    · exact ⟨hr.fwd.offset, hr.fwd.baseline, ReflTransGen.tail hr.fwd.steps (.parent hd)⟩
    · exact fun st hst => hl st (List.dropLast_subset _ hst)

theorem running_steps {E : Env} (hE : NestOk E) {s0 : PS} {n : Nat} {s s' : LoopState} (h : LoopSteps (machineOf E) n s s')
    (hr : Running s0 s) : Running s0 s' := by
  induction h with
  | refl s => exact hr
  | tail h1 h2 ih => exact running_step hE (ih hr) h2

theorem loop_result {E : Env} (hE : NestOk E) {doc : DocTree} {line : Nat} {st : State} {level n : Nat}
    {r : ParsingResult} (hst : st.live = true)
    (h : parseLoop (machineOf E) n (LoopState.init doc line st level) = .ok r) :
    match r with
    | .eof d stack => Steps doc d ∧ ∀ s ∈ stack, s.live = true
    | .emptyStateStack d stack => Steps doc d ∧ ∀ s ∈ stack, s.live = true
    | .failure d => LooseSteps doc d := by
  obtain ⟨k, s, hs, hd⟩ := parseLoop_last h
  have hrun : Running (LoopState.init doc line st level).ps s :=
    running_steps hE hs ⟨Fwd.refl _, [st], by simpa using hst, .inl rfl⟩
  cases done_cases hd with
  | stuck _ _ => exact steps_loose hrun.fwd.steps
  | empty _ => exact ⟨hrun.fwd.steps, by simp⟩
  | eof he =>
    refine ⟨hrun.fwd.steps, ?_⟩
    obtain ⟨rest, h1, h2 | h2⟩ := hrun.live
    · rw [h2]; exact fun s hs => h1 s (List.dropLast_subset _ hs)
    · rw [h2]; simpa using h1
  | failed _ => exact steps_loose hrun.fwd.steps
  | noLine _ _ _ => exact steps_loose hrun.fwd.steps
  | transition st ts line m f d hst ht hline hf hr =>
    obtain ⟨r, hmem, _⟩ := firstTransition_mem hf
    exact (steps_loose hrun.fwd.steps).trans ((table_good hE ht (r, f) hmem m s.ps).2 _ hr)

/-- The nested parsers satisfy what the transitions need. -/
theorem parserOf_nestOk (fuel : Nat) (src : List Str) (base : Nat) :
    NestOk { src := src, baseIndent := base, nested := parserOf fuel } := by
  induction fuel generalizing src base with
  | zero => intro lines doc b line st level r _ h; cases h
  | succ n ih =>
    intro lines doc b line st level r hst h
    have := loop_result (ih lines b) hst h
    cases r <;> exact this

/-- Documents of successful parses are built by steps, documents of failed parses by loose steps. -/
theorem parseDocument_steps {fuel : Nat} {stem folder : Str} {lines : List Str} {r : ParsingResult}
    (h : parseDocument fuel stem folder lines = .ok r) :
    match r with
    | .eof d _ => Steps (DocTree.new stem folder) d
    | .emptyStateStack d _ => Steps (DocTree.new stem folder) d
    | .failure d => LooseSteps (DocTree.new stem folder) d := by
  have := parserOf_nestOk fuel [] 0 lines (DocTree.new stem folder) 0 0 .Body 0 r rfl h
  cases r with
  | eof d stack => exact this.1
  | emptyStateStack d stack => exact this.1
  | failure d => exact this

end Rustla
