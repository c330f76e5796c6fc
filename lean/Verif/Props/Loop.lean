import Verif.Lemmas.Loop
/-!
# C29, C30, C31: the main loop of the parser, for arbitrary transition functions

These theorems hold for every source, every table of transitions and every behaviour of the transition functions that
satisfies the stated hypotheses; `Verif.Props.ParserLoop` discharges the hypotheses for the concrete tables.
-/
namespace Rustla

/-- One round of the loop leads from `s` to `s'`. -/
def LoopStep (M : Machine) (s s' : LoopState) : Prop := parseStep M s = .ok (.next s')

/-- `n` rounds of the loop lead from `s` to `s'`. -/
inductive LoopSteps (M : Machine) : Nat → LoopState → LoopState → Prop where
  | refl (s : LoopState) : LoopSteps M 0 s s
  | tail {n : Nat} {s s' s'' : LoopState} : LoopSteps M n s s' → LoopStep M s' s'' → LoopSteps M (n + 1) s s''

/-- Every transition of every state satisfies `Q`. -/
def Machine.Each (M : Machine) (Q : Transition → Prop) : Prop :=
  ∀ st ts, M.table st = .ok ts → ∀ r f, (r, f) ∈ ts → Q f

/-- A successful transition does not move the cursor backwards. -/
def Forward (f : Transition) : Prop :=
  ∀ m s v s', f m s = .ok v s' → s.cursor.offset ≤ s'.cursor.offset ∧ s'.cursor.baseline = s.cursor.baseline

/-- A successful transition pushes at most `k` states. -/
def PushesAtMost (k : Nat) (f : Transition) : Prop :=
  ∀ m s l adv s', f m s = .ok (.push l, adv) s' → l.length ≤ k

/-- A transition never pushes the state `EOF`. -/
def NoEof (f : Transition) : Prop :=
  ∀ m s l adv s', f m s = .ok (.push l, adv) s' → State.EOF ∉ l

/-- Nesting depth of the focused node: number of its ancestors. -/
def DocTree.depth (d : DocTree) : Nat := d.tree.path.length

/-- A transition enters one node for every state it pushes, leaves one node (stays at the root) when it pops, and stays
at its depth otherwise. -/
def PairedMoves (f : Transition) : Prop :=
  ∀ m s pp adv s', f m s = .ok (pp, adv) s' →
    match pp with
    | .push l => s'.doc.depth = s.doc.depth + l.length
    | .pop => s'.doc.depth = s.doc.depth - 1
    | .neither => s'.doc.depth = s.doc.depth

/-! ## Measures -/

/-- How often the round counter may still be increased. -/
def LoopState.patience (s : LoopState) : Nat := if s.changed then 11 else 10 - s.count

/-- Lines left and rounds left on the current line, in one number. -/
def LoopState.budget (M : Machine) (s : LoopState) : Nat := (M.src.length - s.ps.cursor.offset) * 12 + s.patience

theorem patience_le (s : LoopState) : s.patience ≤ 11 := by unfold LoopState.patience; split <;> omega

theorem closeRound_cases (M : Machine) (s : LoopState) :
    (closeRound M s).stack.getLast? = some .EOF ∧ M.src.length ≤ s.ps.cursor.offset ∧
      closeRound M s = { s with stack := s.stack ++ [.EOF] } ∨
    closeRound M s = s ∧ s.ps.cursor.offset < M.src.length := by
  unfold closeRound LineCursor.relativeOffset
  by_cases h : s.ps.cursor.offset ≥ M.src.length
  · left; simp [h]
  · right; simp [h]; omega

theorem offset_applyAdvance (c : LineCursor) (adv : LineAdvance) :
    c.offset ≤ (applyAdvance c adv).offset ∧ (applyAdvance c adv).baseline = c.baseline := by
  cases adv <;> simp [applyAdvance, LineCursor.incrementBy]

theorem movedState_stack (s : LoopState) (stack : List State) (adv : LineAdvance) (ps : PS) :
    (movedState s stack adv ps).stack = stack := by unfold movedState; dsimp only; split <;> rfl

theorem movedState_cursor (s : LoopState) (stack : List State) (adv : LineAdvance) (ps : PS) :
    (movedState s stack adv ps).ps.cursor = applyAdvance ps.cursor adv := by
  unfold movedState; dsimp only; split <;> rfl

theorem movedState_doc (s : LoopState) (stack : List State) (adv : LineAdvance) (ps : PS) :
    (movedState s stack adv ps).ps.doc = ps.doc := by
  unfold movedState; dsimp only; split <;> rfl

theorem closeRound_ps (M : Machine) (s : LoopState) : (closeRound M s).ps = s.ps := by
  unfold closeRound; split <;> rfl

theorem closeRound_patience (M : Machine) (s : LoopState) : (closeRound M s).patience = s.patience := by
  unfold closeRound LoopState.patience; split <;> rfl

theorem moved_budget {M : Machine} {s : LoopState} {stack : List State} {adv : LineAdvance} {ps : PS}
    (hc : ¬ (s.changed = false ∧ s.count ≥ 10)) (hline : s.ps.cursor.offset < M.src.length)
    (h1 : s.ps.cursor.offset ≤ ps.cursor.offset) (h2 : ps.cursor.baseline = s.ps.cursor.baseline) :
    (movedState s stack adv ps).budget M < s.budget M := by
  have ha := offset_applyAdvance ps.cursor adv
  by_cases he : (applyAdvance ps.cursor adv).sumTotal = s.ps.cursor.sumTotal
  · have : movedState s stack adv ps =
      { ps := { ps with cursor := applyAdvance ps.cursor adv }, stack := stack, changed := false, count := s.count + 1 } := by
      unfold movedState; simp only [if_pos he]
    rw [this]
    have ho : (applyAdvance ps.cursor adv).offset = s.ps.cursor.offset := by
      unfold LineCursor.sumTotal at he; omega
    simp only [LoopState.budget, LoopState.patience, ho]
    cases hch : s.changed
    · have : s.count < 10 := by
        rcases Nat.lt_or_ge s.count 10 with h | h
        · exact h
        · exact absurd ⟨hch, h⟩ hc
      simp; omega
    · simp; omega
  · have : movedState s stack adv ps =
      { ps := { ps with cursor := applyAdvance ps.cursor adv }, stack := stack, changed := true, count := 0 } := by
      unfold movedState; simp only [if_neg he]
    rw [this]
    have ho : s.ps.cursor.offset < (applyAdvance ps.cursor adv).offset := by
      unfold LineCursor.sumTotal at he; omega
    have := patience_le s
    simp only [LoopState.budget, LoopState.patience]
    simp only [if_true]
    omega

theorem left_budget {M : Machine} {s : LoopState} (d : DocTree) : (leftState s d).budget M ≤ s.budget M := by
  simp only [leftState, LoopState.budget, LoopState.patience]
  cases s.changed <;> simp <;> omega

theorem closeRound_budget (M : Machine) (s : LoopState) : (closeRound M s).budget M = s.budget M := by
  unfold LoopState.budget; rw [closeRound_ps, closeRound_patience]

/-- The rank of a state decreases lexicographically in every round. -/
def LoopState.rank (M : Machine) (s : LoopState) : Nat × Nat × Nat :=
  (if s.stack.getLast? = some .EOF then 0 else 1, s.budget M, s.stack.length)

theorem line_lt {M : Machine} {s : LoopState} {line : Str} (h : M.src[s.ps.cursor.offset]? = some line) :
    s.ps.cursor.offset < M.src.length := by
  rw [List.getElem?_eq_some_iff] at h; exact h.1

theorem dropLast_length_lt {α : Type} {l : List α} {a : α} (h : l.getLast? = some a) : l.dropLast.length < l.length := by
  cases l with
  | nil => simp at h
  | cons b l => simp

theorem step_rank {M : Machine} (hM : M.Each Forward) {s s' : LoopState} (h : LoopStep M s s') :
    Prod.Lex (· < ·) (Prod.Lex (· < ·) (· < ·)) (s'.rank M) (s.rank M) := by
  obtain ⟨hc, h⟩ := step_cases h
  cases h with
  | moved st ts line m f pp adv ps stack hst h1 h2 ht hline hf hr hpp he =>
    subst he
    have hne : s.stack.getLast? ≠ some .EOF := by rw [hst]; simpa using h1
    rcases closeRound_cases M (movedState s stack adv ps) with ⟨hE, _⟩ | ⟨hE, _⟩
    · refine Prod.Lex.left _ _ ?_
      rw [if_pos hE, if_neg hne]; omega
    · obtain ⟨r, hmem, _⟩ := firstTransition_mem hf
      obtain ⟨ho, hb⟩ := hM st ts ht r f hmem m _ _ _ hr
      have hlt := moved_budget (stack := stack) (adv := adv) hc (line_lt hline) ho hb
      rw [hE]
      simp only [LoopState.rank]
      rw [if_neg hne]
      by_cases hE' : (movedState s stack adv ps).stack.getLast? = some .EOF
      · rw [if_pos hE']; exact Prod.Lex.left _ _ (by omega)
      · rw [if_neg hE']; exact Prod.Lex.right _ (Prod.Lex.left _ _ hlt)
  | left st ts d hst h1 h2 ht hn hd he =>
    subst he
    have hne : s.stack.getLast? ≠ some .EOF := by rw [hst]; simpa using h1
    rcases closeRound_cases M (leftState s d) with ⟨hE, _⟩ | ⟨hE, _⟩
    · refine Prod.Lex.left _ _ ?_
      rw [if_pos hE, if_neg hne]; omega
    · have hle := left_budget (M := M) (s := s) d
      rw [hE]
      simp only [LoopState.rank]
      rw [if_neg hne]
      by_cases hE' : (leftState s d).stack.getLast? = some .EOF
      · rw [if_pos hE']; exact Prod.Lex.left _ _ (by omega)
      · rw [if_neg hE']
        refine Prod.Lex.right _ ?_
        rcases Nat.lt_or_eq_of_le hle with h | h
        · exact Prod.Lex.left _ _ h
        · rw [h]; exact Prod.Lex.right _ (dropLast_length_lt hst)

/-- **C29.** For every source, every table of transitions and every behaviour of the transitions that does not move the
cursor backwards, the loop cannot go on for ever: the relation "one round leads to" is well-founded. -/
theorem C29_no_infinite_run (M : Machine) (hM : M.Each Forward) :
    WellFounded (fun s' s => LoopStep M s s') := by
  have wf : WellFounded (Prod.Lex (· < · : Nat → Nat → Prop) (Prod.Lex (· < · : Nat → Nat → Prop) (· < · : Nat → Nat → Prop))) :=
    (Prod.lex Nat.lt_wfRel (Prod.lex Nat.lt_wfRel Nat.lt_wfRel)).wf
  exact Subrelation.wf (fun h => step_rank hM h) (InvImage.wf (LoopState.rank M) wf)

/-- The potential used for the explicit bound: no transition pushes more than `k` states. -/
def LoopState.potential (M : Machine) (k : Nat) (s : LoopState) : Nat :=
  if s.stack.getLast? = some .EOF then 0 else 1 + s.budget M * (k + 1) + s.stack.length

theorem pushOrPop_length {f : Transition} {k : Nat} (hf : PushesAtMost k f) {m : Match} {ps ps' : PS} {pp : PushOrPop}
    {adv : LineAdvance} (hr : f m ps = .ok (pp, adv) ps') {old new : List State} (h : applyPushOrPop old pp = .ok new) :
    new.length ≤ old.length + k := by
  cases pp with
  | push l =>
    have := hf m ps l adv ps' hr
    simp only [applyPushOrPop, Except.ok.injEq] at h
    subst h; simp; omega
  | pop =>
    simp only [applyPushOrPop] at h
    split at h
    · simp at h
    · simp only [Except.ok.injEq] at h; subst h; simp; omega
  | neither => simp only [applyPushOrPop, Except.ok.injEq] at h; subst h; omega

theorem step_potential {M : Machine} {k : Nat} (hM : M.Each Forward) (hk : M.Each (PushesAtMost k)) {s s' : LoopState}
    (h : LoopStep M s s') : s'.potential M k < s.potential M k := by
  obtain ⟨hc, h⟩ := step_cases h
  cases h with
  | moved st ts line m f pp adv ps stack hst h1 h2 ht hline hf hr hpp he =>
    subst he
    have hne : s.stack.getLast? ≠ some .EOF := by rw [hst]; simpa using h1
    unfold LoopState.potential
    rw [if_neg hne]
    split
    · omega
    · rename_i hE'
      rcases closeRound_cases M (movedState s stack adv ps) with ⟨hE, _⟩ | ⟨hE, _⟩
      · exact absurd hE hE'
      · obtain ⟨r, hmem, _⟩ := firstTransition_mem hf
        obtain ⟨ho, hb⟩ := hM st ts ht r f hmem m _ _ _ hr
        have hlt := moved_budget (stack := stack) (adv := adv) hc (line_lt hline) ho hb
        have hlen := pushOrPop_length (hk st ts ht r f hmem) hr hpp
        rw [hE, movedState_stack]
        have := Nat.mul_le_mul_right (k + 1) (Nat.succ_le_of_lt hlt)
        rw [Nat.succ_mul] at this
        omega
  | left st ts d hst h1 h2 ht hn hd he =>
    subst he
    have hne : s.stack.getLast? ≠ some .EOF := by rw [hst]; simpa using h1
    unfold LoopState.potential
    rw [if_neg hne]
    split
    · omega
    · rename_i hE'
      rcases closeRound_cases M (leftState s d) with ⟨hE, _⟩ | ⟨hE, _⟩
      · exact absurd hE hE'
      · have hle := left_budget (M := M) (s := s) d
        have := Nat.mul_le_mul_right (k + 1) hle
        have hl := dropLast_length_lt hst
        rw [hE]
        have : (leftState s d).stack.length = s.stack.dropLast.length := rfl
        omega

theorem steps_potential {M : Machine} {k : Nat} (hM : M.Each Forward) (hk : M.Each (PushesAtMost k)) {n : Nat}
    {s s' : LoopState} (h : LoopSteps M n s s') : n + s'.potential M k ≤ s.potential M k := by
  induction h with
  | refl s => omega
  | tail h1 h2 ih => have := step_potential hM hk h2; omega

/-- **C29 (bound).** If no transition moves the cursor backwards or pushes more than `k` states, a new parser on a
source of `l` lines goes through at most `(12 * l + 10) * (k + 1) + 2` rounds. -/
theorem C29_bound (M : Machine) (k : Nat) (hM : M.Each Forward) (hk : M.Each (PushesAtMost k)) (doc : DocTree)
    (baseLine : Nat) (st : State) (level : Nat) {n : Nat} {s' : LoopState}
    (h : LoopSteps M n (LoopState.init doc baseLine st level) s') : n ≤ (12 * M.src.length + 10) * (k + 1) + 2 := by
  have := steps_potential hM hk h
  have hp : (LoopState.init doc baseLine st level).potential M k ≤ (12 * M.src.length + 10) * (k + 1) + 2 := by
    have hb : (LoopState.init doc baseLine st level).budget M = 12 * M.src.length + 10 := by
      simp [LoopState.budget, LoopState.patience, LoopState.init]; omega
    unfold LoopState.potential
    rw [hb]
    split
    · omega
    · simp [LoopState.init]; omega
  omega

theorem pushSwap_fuel {α : Type} (l : List α) (i : Nat) (x : α) : pushSwap l i x ≠ .error .outOfFuel := by
  unfold pushSwap; split
  · simp
  · split <;> simp

theorem parentOrSelf_fuel (z : Zipper) : z.parentOrSelf ≠ .error .outOfFuel := by
  unfold Zipper.parentOrSelf Zipper.focusOnParent
  cases z.path with
  | nil => simp [bind, Except.bind, pure, Except.pure]
  | cons a rest =>
    obtain ⟨p, i⟩ := a
    cases hp : p.children with
    | none => simp [hp, bind, Except.bind]
    | some cs =>
      cases hs : pushSwap cs i z.node with
      | error e =>
        have := pushSwap_fuel cs i z.node
        rw [hs] at this
        simpa [hp, hs, bind, Except.bind] using this
      | ok v => simp [hp, hs, bind, Except.bind, pure, Except.pure]

theorem focusOnParent_fuel (d : DocTree) : d.focusOnParent ≠ .error .outOfFuel := by
  unfold DocTree.focusOnParent
  cases h : d.tree.parentOrSelf with
  | error e =>
    have := parentOrSelf_fuel d.tree
    rw [h] at this
    simpa [bind, Except.bind] using this
  | ok v => simp [bind, Except.bind, pure, Except.pure]

/-- No transition runs out of the bound given to a nested parser. -/
def Fuelled (f : Transition) : Prop := ∀ m s, f m s ≠ .panic .outOfFuel

theorem step_fuel {M : Machine} (hM : M.Each Fuelled) (ht : ∀ st, M.table st ≠ .error .outOfFuel) (s : LoopState) :
    parseStep M s ≠ .error .outOfFuel := by
  have hno : noMatch M s ≠ .error .outOfFuel := by
    unfold noMatch
    cases h : s.ps.doc.focusOnParent with
    | error e =>
      have := focusOnParent_fuel s.ps.doc
      rw [h] at this
      simpa [bind, Except.bind] using this
    | ok d => simp [bind, Except.bind, pure, Except.pure]
  unfold parseStep
  split
  · simp
  · split
    · simp
    · simp
    · simp
    · rename_i st _ _ hst
      cases hts : M.table st with
      | error e =>
        have := ht st
        rw [hts] at this
        simpa [bind, Except.bind] using this
      | ok ts =>
        simp only [bind, Except.bind]
        cases ts with
        | nil => exact hno
        | cons t ts =>
          simp only [runTable]
          split
          · simp
          · rename_i line hl
            cases hf : firstTransition line (t :: ts) with
            | none => exact hno
            | some p =>
              obtain ⟨m, f⟩ := p
              obtain ⟨r, hmem, _⟩ := firstTransition_mem hf
              simp only
              cases hr : f m s.ps with
              | fail d => simp
              | panic p =>
                have := hM st _ hts r f hmem m s.ps
                rw [hr] at this
                simpa using this
              | ok v ps =>
                obtain ⟨pp, adv⟩ := v
                simp only [afterTransition]
                cases hpp : applyPushOrPop s.stack pp with
                | ok st => simp only [bind, Except.bind, pure, Except.pure]; split <;> simp
                | error e =>
                  cases pp with
                  | push l => simp [applyPushOrPop] at hpp
                  | neither => simp [applyPushOrPop] at hpp
                  | pop =>
                    simp only [applyPushOrPop] at hpp
                    split at hpp
                    · simp only [Except.error.injEq] at hpp; subst hpp; simp [bind, Except.bind]
                    · simp at hpp

/-- If the loop runs out of its bound after `n` rounds, there is a run of `n` rounds. -/
theorem parseLoop_fuel {M : Machine} (hM : M.Each Fuelled) (ht : ∀ st, M.table st ≠ .error .outOfFuel) {n : Nat}
    {s0 s : LoopState} {k : Nat} (hs : LoopSteps M k s0 s) (h : parseLoop M n s = .error .outOfFuel) :
    ∃ s', LoopSteps M (k + n) s0 s' := by
  induction n generalizing s k with
  | zero => exact ⟨s, hs⟩
  | succ n ih =>
    rw [parseLoop] at h
    cases hstep : parseStep M s with
    | error e =>
      have := step_fuel hM ht s
      rw [hstep] at this
      simp only [hstep, bind, Except.bind] at h
      simp only [Except.error.injEq] at h
      subst h
      exact absurd rfl this
    | ok r =>
      cases r with
      | done r => simp [hstep, bind, Except.bind, pure, Except.pure] at h
      | next s' =>
        simp only [hstep, bind, Except.bind] at h
        obtain ⟨s'', h''⟩ := ih (.tail hs hstep) h
        exact ⟨s'', by rwa [Nat.add_right_comm, ← Nat.add_assoc] at *⟩

/-- **C29 (the loop returns).** With the bound of `C29_bound` on the number of rounds the loop comes to a result or to a
panic of a transition; it is never cut off. -/
theorem C29_returns (M : Machine) (k : Nat) (hM : M.Each Forward) (hk : M.Each (PushesAtMost k)) (hf : M.Each Fuelled)
    (ht : ∀ st, M.table st ≠ .error .outOfFuel) (doc : DocTree) (baseLine : Nat) (st : State) (level : Nat) :
    parseLoop M ((12 * M.src.length + 10) * (k + 1) + 3) (LoopState.init doc baseLine st level) ≠ .error .outOfFuel := by
  intro h
  obtain ⟨s', hs⟩ := parseLoop_fuel hf ht (.refl _) h
  have := C29_bound M k hM hk doc baseLine st level hs
  omega

/-! ## C30 -/

theorem step_cursor {M : Machine} (hM : M.Each Forward) {s s' : LoopState} (h : LoopStep M s s') :
    s.ps.cursor.offset ≤ s'.ps.cursor.offset ∧ s'.ps.cursor.baseline = s.ps.cursor.baseline := by
  obtain ⟨hc, h⟩ := step_cases h
  cases h with
  | moved st ts line m f pp adv ps stack hst h1 h2 ht hline hf hr hpp he =>
    subst he
    obtain ⟨r, hmem, _⟩ := firstTransition_mem hf
    obtain ⟨ho, hb⟩ := hM st ts ht r f hmem m _ _ _ hr
    rw [closeRound_ps, movedState_cursor]
    have := offset_applyAdvance ps.cursor adv
    omega
  | left st ts d hst h1 h2 ht hn hd he =>
    subst he
    rw [closeRound_ps]
    exact ⟨Nat.le_refl _, rfl⟩

/-- **C30 (monotonicity).** The line number of the cursor never decreases during a run. -/
theorem C30_cursor_monotone (M : Machine) (hM : M.Each Forward) {n : Nat} {s s' : LoopState} (h : LoopSteps M n s s') :
    s.ps.cursor.sumTotal ≤ s'.ps.cursor.sumTotal := by
  induction h with
  | refl s => exact Nat.le_refl _
  | tail h1 h2 ih =>
    have := step_cursor hM h2
    unfold LineCursor.sumTotal at *
    omega

/-- The result of the loop is the result of the last round. -/
theorem parseLoop_last {M : Machine} {n : Nat} {s : LoopState} {r : ParsingResult} (h : parseLoop M n s = .ok r) :
    ∃ k s', LoopSteps M k s s' ∧ parseStep M s' = .ok (.done r) := by
  suffices H : ∀ (n : Nat) (k : Nat) (s0 s : LoopState), LoopSteps M k s0 s → parseLoop M n s = .ok r →
      ∃ k s', LoopSteps M k s0 s' ∧ parseStep M s' = .ok (.done r) from H n 0 s s (.refl s) h
  intro n
  induction n with
  | zero => intro k s0 s _ h; simp [parseLoop] at h
  | succ n ih =>
    intro k s0 s hs h
    rw [parseLoop] at h
    cases hstep : parseStep M s with
    | error e => simp [hstep, bind, Except.bind] at h
    | ok x =>
      cases x with
      | done r' =>
        simp only [hstep, bind, Except.bind, pure, Except.pure, Except.ok.injEq] at h
        subst h
        exact ⟨k, s, hs, hstep⟩
      | next s' =>
        simp only [hstep, bind, Except.bind] at h
        exact ih (k + 1) s0 s' (.tail hs hstep) h

theorem mem_pushOrPop {f : Transition} (hf : NoEof f) {m : Match} {ps ps' : PS} {pp : PushOrPop} {adv : LineAdvance}
    (hr : f m ps = .ok (pp, adv) ps') {old new : List State} (h : applyPushOrPop old pp = .ok new)
    (hmem : State.EOF ∈ new) : State.EOF ∈ old := by
  cases pp with
  | push l =>
    have := hf m ps l adv ps' hr
    simp only [applyPushOrPop, Except.ok.injEq] at h
    subst h
    rcases List.mem_append.mp hmem with h | h
    · exact h
    · exact absurd h this
  | pop =>
    simp only [applyPushOrPop] at h
    split at h
    · simp at h
    · simp only [Except.ok.injEq] at h; subst h; exact List.dropLast_subset _ hmem
  | neither => simp only [applyPushOrPop, Except.ok.injEq] at h; subst h; exact hmem

/-- The state `EOF` is on the stack only as its top, with the cursor past the last line. -/
def EofSound (M : Machine) (s : LoopState) : Prop :=
  State.EOF ∉ s.stack ∨
    ∃ rest, s.stack = rest ++ [State.EOF] ∧ State.EOF ∉ rest ∧ M.src.length ≤ s.ps.cursor.offset

theorem eofSound_close {M : Machine} {s : LoopState} (h : State.EOF ∉ s.stack) : EofSound M (closeRound M s) := by
  rcases closeRound_cases M s with ⟨_, h2, h3⟩ | ⟨h1, _⟩
  · rw [h3]; exact .inr ⟨s.stack, rfl, h, h2⟩
  · rw [h1]; exact .inl h

theorem eofSound_step {M : Machine} (hM : M.Each NoEof) {s s' : LoopState} (h : LoopStep M s s') (hs : EofSound M s) :
    EofSound M s' := by
  obtain ⟨hc, h⟩ := step_cases h
  have hno : ∀ st, s.stack.getLast? = some st → st ≠ .EOF → State.EOF ∉ s.stack := by
    intro st hst hne
    rcases hs with hs | ⟨rest, hr, _, _⟩
    · exact hs
    · rw [hr] at hst; simp at hst; exact absurd hst.symm hne
  cases h with
  | moved st ts line m f pp adv ps stack hst h1 h2 ht hline hf hr hpp he =>
    subst he
    obtain ⟨r, hmem, _⟩ := firstTransition_mem hf
    apply eofSound_close
    rw [movedState_stack]
    exact fun hm => hno st hst h1 (mem_pushOrPop (hM st ts ht r f hmem) hr hpp hm)
  | left st ts d hst h1 h2 ht hn hd he =>
    subst he
    apply eofSound_close
    exact fun hm => hno st hst h1 (List.dropLast_subset _ hm)

theorem eofSound_steps {M : Machine} (hM : M.Each NoEof) {n : Nat} {s s' : LoopState} (h : LoopSteps M n s s')
    (hs : EofSound M s) : EofSound M s' := by
  induction h with
  | refl s => exact hs
  | tail h1 h2 ih => exact eofSound_step hM h2 (ih hs)

/-- **C30 (end of input).** If no transition pushes `EOF` itself and a parser that was not started in the state `EOF`
reports the end of its input, then the cursor is at or past the end of the source at that moment, the document returned
is the one built up to there, and the stack returned contains no `EOF`. -/
theorem C30_eof_only_at_end (M : Machine) (hM : M.Each NoEof) (doc : DocTree) (baseLine : Nat) (st : State)
    (hst : st ≠ .EOF) (level : Nat) {n : Nat} {d : DocTree} {stack : List State}
    (h : parseLoop M n (LoopState.init doc baseLine st level) = .ok (.eof d stack)) :
    ∃ k s, LoopSteps M k (LoopState.init doc baseLine st level) s ∧ s.ps.doc = d ∧
      M.src.length ≤ s.ps.cursor.relativeOffset ∧ State.EOF ∉ stack := by
  obtain ⟨k, s, hs, hd⟩ := parseLoop_last h
  have hsound := eofSound_steps hM hs (.inl (by simp [LoopState.init]; exact fun h => hst h.symm))
  refine ⟨k, s, hs, ?_⟩
  cases done_cases hd with
  | eof he =>
    rcases hsound with hno | ⟨rest, hr, hrest, hlen⟩
    · exact absurd (List.mem_of_getLast? he) hno
    · refine ⟨rfl, hlen, ?_⟩
      rw [hr]; simpa using hrest

/-! ## C31 -/

theorem focusOnParent_depth {d d' : DocTree} (h : d.focusOnParent = .ok d') : d'.depth = d.depth - 1 := by
  unfold DocTree.focusOnParent Zipper.parentOrSelf Zipper.focusOnParent at h
  unfold DocTree.depth
  cases hp : d.tree.path with
  | nil =>
    simp only [hp, bind, Except.bind, pure, Except.pure, Except.ok.injEq] at h
    subst h; simp [hp]
  | cons a rest =>
    obtain ⟨p, i⟩ := a
    cases hc : p.children with
    | none => simp [hp, hc, bind, Except.bind] at h
    | some cs =>
      cases hs : pushSwap cs i d.tree.node with
      | error e => simp [hp, hc, hs, bind, Except.bind] at h
      | ok v =>
        simp only [hp, hc, hs, bind, Except.bind, pure, Except.pure, Except.ok.injEq] at h
        subst h; simp

/-- Number of states on the stack, not counting `EOF`. -/
def LoopState.open (s : LoopState) : Nat := (s.stack.filter (· ≠ State.EOF)).length

theorem filter_noEof {l : List State} (h : State.EOF ∉ l) : (l.filter (· ≠ State.EOF)).length = l.length := by
  rw [List.filter_eq_self.mpr]
  intro a ha
  simp only [ne_eq, decide_eq_true_eq]
  rintro rfl
  exact h ha

theorem closeRound_open (M : Machine) (s : LoopState) : (closeRound M s).open = s.open := by
  unfold closeRound LoopState.open; split <;> simp

theorem lockstep_step {M : Machine} (hM : M.Each PairedMoves) (hE : M.Each NoEof) {s s' : LoopState} (h : LoopStep M s s')
    (hs : EofSound M s) (base : Nat) (hb : s.ps.doc.depth + 1 = base + s.open) (hne : s'.open ≠ 0) :
    s'.ps.doc.depth + 1 = base + s'.open := by
  obtain ⟨hc, h⟩ := step_cases h
  have hno : ∀ st, s.stack.getLast? = some st → st ≠ .EOF → State.EOF ∉ s.stack := by
    intro st hst hne
    rcases hs with hs | ⟨rest, hr, _, _⟩
    · exact hs
    · rw [hr] at hst; simp at hst; exact absurd hst.symm hne
  cases h with
  | moved st ts line m f pp adv ps stack hst h1 h2 ht hline hf hr hpp he =>
    subst he
    obtain ⟨r, hmem, _⟩ := firstTransition_mem hf
    have hp := hM st ts ht r f hmem m _ _ _ _ hr
    have hnoS := hno st hst h1
    have hnoS' : State.EOF ∉ stack := fun hm => hnoS (mem_pushOrPop (hE st ts ht r f hmem) hr hpp hm)
    rw [closeRound_ps, movedState_doc]
    rw [closeRound_open] at hne ⊢
    have e1 : s.open = s.stack.length := filter_noEof hnoS
    have e2 : (movedState s stack adv ps).open = stack.length := by
      unfold LoopState.open; rw [movedState_stack]; exact filter_noEof hnoS'
    rw [e1] at hb
    rw [e2] at hne ⊢
    cases pp with
    | push l =>
      simp only [applyPushOrPop, Except.ok.injEq] at hpp
      subst hpp
      simp only [List.length_append] at *
      omega
    | pop =>
      simp only [applyPushOrPop] at hpp
      split at hpp
      · simp at hpp
      · simp only [Except.ok.injEq] at hpp
        subst hpp
        simp only [List.length_dropLast] at *
        omega
    | neither =>
      simp only [applyPushOrPop, Except.ok.injEq] at hpp
      subst hpp
      simp only at hp
      omega
  | left st ts d hst h1 h2 ht hn hd he =>
    subst he
    have hnoS := hno st hst h1
    have hnoS' : State.EOF ∉ s.stack.dropLast := fun hm => hnoS (List.dropLast_subset _ hm)
    rw [closeRound_ps]
    rw [closeRound_open] at hne ⊢
    have e1 : s.open = s.stack.length := filter_noEof hnoS
    have e2 : (leftState s d).open = s.stack.dropLast.length := filter_noEof hnoS'
    have hdep := focusOnParent_depth hd
    have : (leftState s d).ps.doc = d := rfl
    rw [this]
    rw [e1] at hb
    rw [e2] at hne ⊢
    simp only [List.length_dropLast] at *
    omega

/-- **C31.** If every transition enters one node for each state it pushes and leaves one node when it pops, then in
every round of every run of a new parser, also after rounds in which no transition matched, the focused node lies as
many levels below the node in focus at the start as there are states above the bottom of the stack. -/
theorem C31_lock_step (M : Machine) (hM : M.Each PairedMoves) (hE : M.Each NoEof) (doc : DocTree) (baseLine : Nat) (st : State)
    (hst : st ≠ .EOF) (level : Nat) {n : Nat} {s : LoopState}
    (h : LoopSteps M n (LoopState.init doc baseLine st level) s) (hne : s.open ≠ 0) :
    s.ps.doc.depth + 1 = doc.depth + s.open := by
  have hsound0 : EofSound M (LoopState.init doc baseLine st level) :=
    .inl (by simp [LoopState.init]; exact fun h => hst h.symm)
  have hopen0 : (LoopState.init doc baseLine st level).open = 1 := by
    simp [LoopState.open, LoopState.init, hst]
  generalize hs0 : LoopState.init doc baseLine st level = s0 at *
  have hd0 : s0.ps.doc = doc := by rw [← hs0]; rfl
  induction h with
  | refl s => subst hs0; rw [hopen0, hd0]
  | @tail n a b c h1 h2 ih =>
    have hs := eofSound_steps hE h1 hsound0
    have hb : b.open ≠ 0 := by
      obtain ⟨_, hcase⟩ := step_cases h2
      have : ∃ st', b.stack.getLast? = some st' ∧ st' ≠ .EOF := by
        cases hcase with
        | moved st' _ _ _ _ _ _ _ _ hst' h1' => exact ⟨st', hst', h1'⟩
        | left st' _ _ hst' h1' => exact ⟨st', hst', h1'⟩
      obtain ⟨st', h3, h4⟩ := this
      unfold LoopState.open
      have hm := List.mem_of_getLast? h3
      intro h0
      have := List.length_eq_zero_iff.mp h0
      have hmem : st' ∈ b.stack.filter (· ≠ State.EOF) := List.mem_filter.mpr ⟨hm, by simpa using h4⟩
      rw [this] at hmem; simp at hmem
    exact lockstep_step hM hE h2 hs doc.depth (ih hb hs0 hsound0 hopen0 hd0) hne

end Rustla
