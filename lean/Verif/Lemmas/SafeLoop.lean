import Verif.Lemmas.SafeBody
import Verif.Lemmas.ParserSteps
import Verif.Lemmas.Refines
/-! # The loop of a parser does not crash for unknown reasons -/
namespace Rustla

/-- The load of a state: rounds left for its lines, each of which may push `k` states, and the open states. -/
def LoopState.load (M : Machine) (k : Nat) (s : LoopState) : Nat := s.budget M * (k + 1) + s.stack.length

/-- What holds in every round. -/
structure Sane (M : Machine) (k L : Nat) (s : LoopState) : Prop where
  full : s.ps.doc.Full
  rest : (∃ rest, s.stack = rest ++ [.EOF] ∧ rest.length ≤ L) ∨ ((∀ st ∈ s.stack, st.live = true) ∧ s.load M k ≤ L)

/-- Rounds that are enough from a state on. -/
def LoopState.rounds (M : Machine) (k : Nat) (s : LoopState) : Nat :=
  if s.stack.getLast? = some .EOF then 1 else s.load M k + 2

/-- What holds for the result of a parser. -/
def ResultOk (k : Nat) (r : Run ParsingResult) : Prop :=
  match r with
  | .ok (.eof d stack) => d.Full ∧ stack.length ≤ k
  | .ok (.emptyStateStack d stack) => d.Full ∧ stack.length ≤ k
  | .ok (.failure _) => True
  | .error p => p ∈ crashReasons

theorem sane_close {M : Machine} {k L : Nat} {s0 s : LoopState} (hf : s.ps.doc.Full) (hl : ∀ st ∈ s.stack, st.live = true)
    (h0 : s0.stack.getLast? ≠ some .EOF) (hload : s.load M k < s0.load M k) (hL : s0.load M k ≤ L) :
    Sane M k L (closeRound M s) ∧ (closeRound M s).rounds M k < s0.rounds M k := by
  have hlen : s.stack.length ≤ s.load M k := by unfold LoopState.load; omega
  have hr0 : s0.rounds M k = s0.load M k + 2 := by unfold LoopState.rounds; rw [if_neg h0]
  rcases closeRound_cases M s with ⟨_, _, h⟩ | ⟨h, _⟩
  · rw [h]
    refine ⟨⟨hf, .inl ⟨s.stack, rfl, by omega⟩⟩, ?_⟩
    rw [hr0]
    unfold LoopState.rounds
    rw [if_pos (by simp)]
    omega
  · rw [h]
    refine ⟨⟨hf, .inr ⟨hl, by omega⟩⟩, ?_⟩
    rw [hr0]
    unfold LoopState.rounds
    split <;> omega

variable {E : Env} {k : Nat}

/-- One round of a sane state. -/
theorem sane_step (hk : 1 ≤ k) (hO : NestOk E) (hE : NestSafe E.nested (textSize E.src) k) {L : Nat} {s : LoopState}
    (hs : Sane (machineOf E) k L s) :
    match parseStep (machineOf E) s with
    | .ok (.next s') => Sane (machineOf E) k L s' ∧ s'.rounds (machineOf E) k < s.rounds (machineOf E) k
    | .ok (.done r) => ResultOk L (.ok r)
    | .error p => p ∈ crashReasons := by
  cases hstep : parseStep (machineOf E) s with
  | ok r =>
    cases r with
    | done r =>
      dsimp only
      cases done_cases hstep with
      | stuck _ _ => trivial
      | empty _ => exact ⟨hs.full, Nat.zero_le _⟩
      | eof he =>
        refine ⟨hs.full, ?_⟩
        rcases hs.rest with ⟨rest, h1, h2⟩ | ⟨h1, h2⟩
        · rw [h1]; simpa using h2
        · have := h1 _ (List.mem_of_getLast? he)
          cases this
      | failed _ => trivial
      | noLine _ _ _ => trivial
      | transition st ts line m f d hst ht hline hf hr => trivial
    | next s' =>
      dsimp only
      obtain ⟨hc, hcase⟩ := step_cases hstep
      cases hcase with
      | moved st ts line m f pp adv ps stack hst h1 h2 ht hline hf hr hpp he =>
        have hne : s.stack.getLast? ≠ some .EOF := by rw [hst]; simpa using h1
        rcases hs.rest with ⟨rest, h3, _⟩ | ⟨hlive, hload⟩
        · rw [h3] at hne; simp at hne
        have hst' := hlive st (List.mem_of_getLast? hst)
        obtain ⟨ts', ht', hsafe⟩ := table_safe hk hE hst' line
        have : ts' = ts := by
          have h4 : tableOf E st = .ok ts := ht
          rw [ht'] at h4; cases h4; rfl
        subst this
        have hm := hsafe m f s.ps hf ⟨hs.full, hline⟩
        rw [hr] at hm
        obtain ⟨r, hmem, _⟩ := firstTransition_mem hf
        obtain ⟨e1, e2⟩ := (table_good hO ht (r, f) hmem m s.ps).1 _ _ hr
        subst he
        have hlt := moved_budget (M := machineOf E) (stack := stack) (adv := adv) hc (line_lt hline) e1.offset e1.baseline
        refine sane_close ?_ ?_ hne ?_ hload
        · rw [movedState_doc]; exact hm.1
        · rw [movedState_stack]; exact applyPushOrPop_live hpp hlive e2
        · have hlen : stack.length ≤ s.stack.length + k := by
            cases pp with
            | push l =>
              have h5 := hm.2 l rfl
              simp only [applyPushOrPop, Except.ok.injEq] at hpp
              subst hpp; simp; omega
            | pop =>
              simp only [applyPushOrPop] at hpp
              split at hpp
              · simp at hpp
              · simp only [Except.ok.injEq] at hpp; subst hpp; simp; omega
            | neither => simp only [applyPushOrPop, Except.ok.injEq] at hpp; subst hpp; omega
          unfold LoopState.load
          rw [movedState_stack]
          have := Nat.mul_le_mul_right (k + 1) (Nat.succ_le_of_lt hlt)
          rw [Nat.succ_mul] at this
          omega
      | left st ts d hst h1 h2 ht hn hd he =>
        have hne : s.stack.getLast? ≠ some .EOF := by rw [hst]; simpa using h1
        rcases hs.rest with ⟨rest, h3, _⟩ | ⟨hlive, hload⟩
        · rw [h3] at hne; simp at hne
        subst he
        obtain ⟨d', hd', hfull⟩ := focusOnParent_full hs.full.sound
        rw [hd] at hd'
        cases hd'
        refine sane_close hfull (fun st hst => hlive st (List.dropLast_subset _ hst)) hne ?_ hload
        unfold LoopState.load
        have h6 := Nat.mul_le_mul_right (k + 1) (left_budget (M := machineOf E) (s := s) d)
        have h7 := dropLast_length_lt hst
        have : (leftState s d).stack.length = s.stack.dropLast.length := rfl
        omega
  | error p =>
    dsimp only
    unfold parseStep at hstep
    split at hstep
    · cases hstep
    · split at hstep
      · cases hstep
      · cases hstep
      · cases hstep
      · rename_i st hne1 hne2 hst
        rcases hs.rest with ⟨rest, h3, _⟩ | ⟨hlive, hload⟩
        · rw [h3] at hst; simp at hst; exact absurd hst.symm hne1
        have hst' := hlive st (List.mem_of_getLast? hst)
        have hno : noMatch (machineOf E) s ≠ .error p := by
          obtain ⟨d', hd', hfull⟩ := focusOnParent_full hs.full.sound
          unfold noMatch
          rw [hd']
          simp [bind, Except.bind, pure, Except.pure]
        obtain ⟨ts0, ht0, _⟩ := table_safe hk hE hst' []
        have ht0' : (machineOf E).table st = .ok ts0 := ht0
        rw [ht0'] at hstep
        simp only [bind, Except.bind] at hstep
        cases hts : ts0 with
        | nil => rw [hts] at hstep; exact absurd hstep hno
        | cons t ts =>
          rw [hts] at hstep
          simp only [runTable] at hstep
          split at hstep
          · cases hstep
          · rename_i line hline
            obtain ⟨ts1, ht1, hsafe⟩ := table_safe hk hE hst' line
            have : ts1 = t :: ts := by rw [ht0] at ht1; cases ht1; exact hts
            subst this
            cases hf : firstTransition line (t :: ts) with
            | none => rw [hf] at hstep; exact absurd hstep hno
            | some v =>
              obtain ⟨m, f⟩ := v
              rw [hf] at hstep
              simp only at hstep
              have hm := hsafe m f s.ps hf ⟨hs.full, hline⟩
              cases hr : f m s.ps with
              | fail d => rw [hr] at hstep; cases hstep
              | panic q =>
                rw [hr] at hstep hm
                simp only [Except.error.injEq] at hstep
                subst hstep
                exact hm
              | ok v ps =>
                obtain ⟨pp, adv⟩ := v
                rw [hr] at hstep
                simp only [afterTransition] at hstep
                have hsn : s.stack.isEmpty = false := by
                  cases hs0 : s.stack with
                  | nil => rw [hs0] at hst; cases hst
                  | cons a as => rfl
                have hpp : ∃ st, applyPushOrPop s.stack pp = .ok st := by
                  cases pp with
                  | push l => exact ⟨_, rfl⟩
                  | neither => exact ⟨_, rfl⟩
                  | pop => exact ⟨s.stack.dropLast, by simp [applyPushOrPop, hsn]⟩
                obtain ⟨st2, hpp⟩ := hpp
                rw [hpp] at hstep
                simp only [bind, Except.bind, pure, Except.pure] at hstep
                split at hstep <;> cases hstep

/-- The loop from a sane state with enough rounds. -/
theorem sane_loop (hk : 1 ≤ k) (hO : NestOk E) (hE : NestSafe E.nested (textSize E.src) k) {L : Nat} (n : Nat)
    {s : LoopState} (hs : Sane (machineOf E) k L s) (hn : s.rounds (machineOf E) k ≤ n) :
    ResultOk L (parseLoop (machineOf E) n s) := by
  induction n generalizing s with
  | zero =>
    unfold LoopState.rounds at hn
    split at hn <;> omega
  | succ n ih =>
    rw [parseLoop]
    have hstep := sane_step hk hO hE hs
    cases h : parseStep (machineOf E) s with
    | error p => rw [h] at hstep; exact hstep
    | ok r =>
      rw [h] at hstep
      cases r with
      | done r => exact hstep
      | next s' => exact ih hstep.1 (by have := hstep.2; omega)

theorem statesBound_ge (n : Nat) : 21 ≤ statesBound n := by
  induction n with
  | zero => exact Nat.le_refl _
  | succ n ih =>
    unfold statesBound
    have := Nat.mul_le_mul (show 1 ≤ 12 * (n + 1) + 10 by omega) (Nat.le_refl (statesBound n + 1))
    omega

theorem statesBound_step (n : Nat) : statesBound n < statesBound (n + 1) := by
  rw [statesBound]
  have := Nat.mul_le_mul (show 1 ≤ 12 * (n + 1) + 10 by omega) (Nat.le_refl (statesBound n + 1))
  omega

theorem statesBound_mono {n m : Nat} (h : n ≤ m) : statesBound n ≤ statesBound m := by
  induction h with
  | refl => exact Nat.le_refl _
  | step h ih => exact Nat.le_trans ih (Nat.le_of_lt (statesBound_step _))

/-- A parser with enough rounds is safe. -/
theorem parser_safe (size : Nat) : ∀ (n : Nat), roundsBound size ≤ n → ∀ (lines : List Str) (doc : DocTree)
    (base line : Nat) (st : State) (level : Nat), textSize lines ≤ size → st.live = true → doc.Full →
    ResultOk (statesBound size) (parserOf n lines doc base line st level) := by
  induction size with
  | zero =>
    intro n hn lines doc base line st level hl hst hd
    obtain ⟨n, rfl⟩ : ∃ k, n = k + 1 := ⟨n - 1, by unfold roundsBound at hn; omega⟩
    have hlen := length_le_textSize lines
    rw [parserOf]
    have hL : (LoopState.init doc line st level).load (machineOf { src := lines, baseIndent := base, nested := parserOf n }) 1 =
        21 := by
      have : lines.length = 0 := by omega
      simp [LoopState.load, LoopState.budget, LoopState.patience, LoopState.init, machineOf, this]
    refine sane_loop (k := 1) (Nat.le_refl _) (parserOf_nestOk n lines base) ?_ (n + 1) ⟨hd, .inr ⟨?_, ?_⟩⟩ ?_
    · intro ls d b l st lv hlt _ _
      simp only at hlt
      omega
    · intro x hx
      simp only [LoopState.init, List.mem_singleton] at hx
      subst hx; exact hst
    · rw [hL]; exact Nat.le_refl _
    · unfold LoopState.rounds
      split
      · omega
      · rw [hL]; exact hn
  | succ size ih =>
    intro n hn lines doc base line st level hl hst hd
    have hb := statesBound_step size
    obtain ⟨n, rfl⟩ : ∃ k, n = k + 1 := ⟨n - 1, by unfold roundsBound at hn; omega⟩
    have hlen := length_le_textSize lines
    rw [parserOf]
    have hL : (LoopState.init doc line st level).load (machineOf { src := lines, baseIndent := base, nested := parserOf n })
        (statesBound size) ≤ statesBound (size + 1) := by
      rw [statesBound]
      have : (LoopState.init doc line st level).budget (machineOf { src := lines, baseIndent := base, nested := parserOf n }) ≤
          12 * (size + 1) + 10 := by
        simp [LoopState.budget, LoopState.patience, LoopState.init, machineOf]
        omega
      have := Nat.mul_le_mul_right (statesBound size + 1) this
      unfold LoopState.load
      simp only [LoopState.init, List.length_singleton] at *
      omega
    have hge := statesBound_ge size
    refine sane_loop (k := statesBound size) (by omega) (parserOf_nestOk n lines base) ?_ (n + 1) ⟨hd, .inr ⟨?_, hL⟩⟩ ?_
    · intro ls d b l st' lv hlt hst' hd'
      simp only at hlt
      have := ih n (by unfold roundsBound at *; omega) ls d b l st' lv (by omega) hst' hd'
      unfold ResultOk at this
      exact this
    · intro x hx
      simp only [LoopState.init, List.mem_singleton] at hx
      subst hx; exact hst
    · unfold LoopState.rounds
      unfold roundsBound at hn
      split <;> omega

end Rustla
