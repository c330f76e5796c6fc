import Verif.Model.Parser
/-! # A larger bound on the nesting does not change results -/
namespace Rustla

/-- `y` gives the same result as `x`, unless `x` runs out of the bound on the nesting. -/
def Refines {α : Type} (x y : P α) : Prop := ∀ s, x s = .panic .outOfFuel ∨ x s = y s

theorem Refines.rfl' {α : Type} {x y : P α} (h : x = y) : Refines x y := fun s => .inr (by rw [h])

theorem Refines.refl {α : Type} (x : P α) : Refines x x := fun _ => .inr rfl

theorem Refines.bind {α β : Type} {x y : P α} {f g : α → P β} (h : Refines x y) (hf : ∀ a, Refines (f a) (g a)) :
    Refines (x >>= f) (y >>= g) := by
  intro s
  show P.bind x f s = _ ∨ P.bind x f s = P.bind y g s
  unfold P.bind
  rcases h s with e | e
  · left; rw [e]
  · rw [e]
    cases y s with
    | ok a s' => exact hf a s'
    | fail d => exact .inr rfl
    | panic p => exact .inr rfl

theorem Refines.ite {α : Type} {c : Prop} [Decidable c] {x y x' y' : P α} (h : Refines x x') (h' : Refines y y') :
    Refines (if c then x else y) (if c then x' else y') := by split <;> assumption

/-- A nested parser with a larger bound. -/
def NestLe (N N' : NestedParser) : Prop :=
  ∀ lines doc base line st level, N lines doc base line st level = .error .outOfFuel ∨
    N lines doc base line st level = N' lines doc base line st level

/-- The same environment with another nested parser. -/
abbrev Env.with (E : Env) (N : NestedParser) : Env := { E with nested := N }

variable {E : Env} {N : NestedParser}

theorem Refines.nest (h : NestLe E.nested N) (lines : List Str) (base : Nat) (st : State) :
    Refines (P.nest E lines base st) (P.nest (E.with N) lines base st) := by
  intro s
  unfold P.nest
  rcases h lines s.doc base s.cursor.sumTotal st s.sectionLevel with e | e
  · left; rw [e]
  · right; rw [e]

theorem Refines.firstNodeBlock (h : NestLe E.nested N) (t : Nat) (f : Option Nat) (st : State) :
    Refines (parseFirstNodeBlock E t f st) (parseFirstNodeBlock (E.with N) t f st) := by
  unfold parseFirstNodeBlock
  refine .bind (.refl _) fun a => .bind (.refl _) fun b => .bind (.rfl' rfl) fun c => ?_
  exact .bind (.nest h _ _ _) fun d => .refl _

theorem Refines.atIndent (i : Nat) {x y : P Moves} (h : Refines x y) : Refines (atIndent i x) (atIndent i y) := by
  unfold Rustla.atIndent
  refine .bind (.refl _) fun d => .bind (.refl _) fun r => ?_
  cases r
  · exact .refl _
  · exact h
  · exact .refl _

/-- The transitions with the larger bound refine those with the smaller one. -/
def RefinesT (f g : Transition) : Prop := ∀ m, Refines (f m) (g m)

theorem RefinesT.same {f g : Transition} (h : f = g) : RefinesT f g := fun m => .rfl' (by rw [h])

theorem listBullet_refines (h : NestLe E.nested N) : RefinesT (listBullet E) (listBullet (E.with N)) := by
  intro m
  unfold listBullet
  refine .bind (.refl _) fun a => .bind (.refl _) fun b => .bind (.refl _) fun c => ?_
  refine .ite (.bind (.refl _) fun _ => .bind (.firstNodeBlock h _ _ _) fun _ => .refl _) (.refl _)

theorem listEnumerator_refines (h : NestLe E.nested N) : RefinesT (listEnumerator E) (listEnumerator (E.with N)) := by
  intro m
  unfold listEnumerator
  refine .bind (.refl _) fun a => .bind (.refl _) fun b => .bind (.refl _) fun c => .bind (.refl _) fun d => ?_
  refine .bind (.refl _) fun e => .bind (.rfl' rfl) fun v => ?_
  refine .ite (.rfl' rfl) (.ite ?_ (.refl _))
  refine .bind (.refl _) fun _ => .bind (.refl _) fun _ => .bind (.rfl' rfl) fun l => ?_
  exact .bind (.nest h _ _ _) fun d => .refl _

theorem listFieldMarker_refines (h : NestLe E.nested N) : RefinesT (listFieldMarker E) (listFieldMarker (E.with N)) := by
  intro m
  unfold listFieldMarker
  refine .bind (.refl _) fun a => .bind (.refl _) fun b => .bind (.refl _) fun c => ?_
  refine .ite (.bind (.refl _) fun d => .ite (.refl _) ?_) (.refl _)
  exact .bind (.refl _) fun _ => .bind (.firstNodeBlock h _ _ _) fun _ => .refl _

theorem bodyFootnote_refines (h : NestLe E.nested N) : RefinesT (bodyFootnote E) (bodyFootnote (E.with N)) := by
  intro m
  unfold bodyFootnote
  refine .bind (.refl _) fun a => .bind (.refl _) fun b => .bind (.refl _) fun c => .bind (.refl _) fun d => ?_
  exact .atIndent _ (.bind (.rfl' rfl) fun _ => .bind (.firstNodeBlock h _ _ _) fun _ => .refl _)

theorem bodyCitation_refines (h : NestLe E.nested N) : RefinesT (bodyCitation E) (bodyCitation (E.with N)) := by
  intro m
  unfold bodyCitation
  refine .bind (.refl _) fun a => ?_
  exact .atIndent _ (.bind (.rfl' rfl) fun _ => .bind (.firstNodeBlock h _ _ _) fun _ => .refl _)

theorem dispatch_refines (h : NestLe E.nested N) (label : Str) (body first : Nat) (empty : Bool) :
    Refines (dispatchDirective E label body first empty) (dispatchDirective (E.with N) label body first empty) := by
  unfold dispatchDirective
  cases standardAdmonition label with
  | some v =>
    show Refines (parseStandardAdmonition E v body first empty) (parseStandardAdmonition (E.with N) v body first empty)
    unfold parseStandardAdmonition
    refine .bind (.rfl' rfl) fun a => .bind (.rfl' rfl) fun b => .bind (.rfl' rfl) fun c => .bind (.refl _) fun _ => ?_
    exact .bind (.nest h _ _ _) fun d => .refl _
  | none =>
    refine .ite (.rfl' rfl) (.ite (.rfl' rfl) (.ite (.rfl' rfl) (.ite (.rfl' rfl) (.ite (.rfl' rfl) (.ite ?_ ?_)))))
    · unfold parseListTable
      refine .bind (.rfl' rfl) fun a => .bind (.rfl' rfl) fun b => .bind (.refl _) fun c => .bind (.refl _) fun _ => ?_
      refine .bind (.refl _) fun _ => .bind (.rfl' rfl) fun l => ?_
      exact .bind (.nest h _ _ _) fun d => .refl _
    · refine .ite (.rfl' rfl) (.ite ?_ (.rfl' rfl))
      unfold parseClass
      refine .bind (.rfl' rfl) fun a => .bind (.rfl' rfl) fun b => .bind (.refl _) fun c => .bind (.rfl' rfl) fun _ => ?_
      exact .bind (.nest h _ _ _) fun d => .refl _

theorem bodyDirective_refines (h : NestLe E.nested N) : RefinesT (bodyDirective E) (bodyDirective (E.with N)) := by
  intro m
  unfold bodyDirective
  refine .bind (.rfl' rfl) fun a => .bind (.refl _) fun b => ?_
  exact .atIndent _ (dispatch_refines h _ _ _ _)

/-! ## Tables -/

/-- The same patterns, refined transitions. -/
inductive TableLe : List (Re × Transition) → List (Re × Transition) → Prop where
  | nil : TableLe [] []
  | cons {r : Re} {f g : Transition} {ts us : List (Re × Transition)} (h : RefinesT f g) (hs : TableLe ts us) :
      TableLe ((r, f) :: ts) ((r, g) :: us)

theorem TableLe.refl (ts : List (Re × Transition)) : TableLe ts ts := by
  induction ts with
  | nil => exact .nil
  | cons t ts ih => exact .cons (.same rfl) ih

theorem bodyRest_refines (h : NestLe E.nested N) : TableLe (bodyRest E) (bodyRest (E.with N)) := by
  unfold bodyRest
  refine .cons (.same rfl) (.cons (.same rfl) (.cons (.same rfl) ?_))
  refine .cons (bodyFootnote_refines h) (.cons (bodyCitation_refines h) (.cons (.same rfl) ?_))
  exact .cons (bodyDirective_refines h) (.cons (.same rfl) (.cons (.same rfl) (.cons (.same rfl) .nil)))

theorem definition_refines : TableLe (definitionTable E) (definitionTable (E.with N)) := by
  unfold definitionTable
  iterate 11 refine .cons (.same rfl) ?_
  exact .nil

theorem choices_env (c : Re) (b n : Nat) : choices E c b n = choices (E.with N) c b n := by
  induction n with
  | zero => rfl
  | succ n ih => unfold choices; rw [ih]

theorem hints_env (k : AplusQuestionnaireType) (c : Re) (b n : Nat) : hints E k c b n = hints (E.with N) k c b n := by
  induction n with
  | zero => rfl
  | succ n ih => unfold hints; rw [ih]

theorem finish_env (k : AplusQuestionnaireType) (c : Re) (b : Nat) :
    finishQuestion E k c b = finishQuestion (E.with N) k c b := by
  unfold finishQuestion
  rw [hints_env (N := N)]

theorem allChoices_env (c : Re) (b : Nat) : allChoices E c b = allChoices (E.with N) c b := by
  unfold allChoices
  rw [choices_env (N := N)]

theorem question_env (label : Str) (b f : Nat) (e : Bool) :
    dispatchQuestion E label b f e = dispatchQuestion (E.with N) label b f e := by
  have h1 : parsePickOne E b f e = parsePickOne (E.with N) b f e := by
    unfold parsePickOne; simp only [← finish_env (E := E) (N := N), ← allChoices_env (E := E) (N := N)]; rfl
  have h2 : parsePickAny E b f e = parsePickAny (E.with N) b f e := by
    unfold parsePickAny; simp only [← finish_env (E := E) (N := N), ← allChoices_env (E := E) (N := N)]; rfl
  have h3 : parseFreetext E b f e = parseFreetext (E.with N) b f e := by
    unfold parseFreetext; simp only [← finish_env (E := E) (N := N), ← allChoices_env (E := E) (N := N)]; rfl
  unfold dispatchQuestion
  rw [h1, h2, h3]

theorem questionnaire_refines : RefinesT (questionnaireDirective E) (questionnaireDirective (E.with N)) := by
  intro m
  refine .rfl' ?_
  unfold questionnaireDirective
  simp only [← question_env (E := E) (N := N)]
  rfl

theorem table_refines (h : NestLe E.nested N) (st : State) :
    (∃ ts us, tableOf E st = .ok ts ∧ tableOf (E.with N) st = .ok us ∧ TableLe ts us) ∨
      ∃ p, tableOf E st = .error p ∧ tableOf (E.with N) st = .error p := by
  have body : TableLe (bodyTable E) (bodyTable (E.with N)) := .cons (.same rfl) (bodyRest_refines h)
  cases st
  case BlockQuote => exact .inl ⟨_, _, rfl, rfl, .cons (.same rfl) (.cons (.same rfl) (bodyRest_refines h))⟩
  case AplusMultiCol => exact .inl ⟨_, _, rfl, rfl, .cons (.same rfl) (.cons (.same rfl) (bodyRest_refines h))⟩
  case BulletList => exact .inl ⟨_, _, rfl, rfl, .cons (.same rfl) (.cons (listBullet_refines h) .nil)⟩
  case EnumeratedList => exact .inl ⟨_, _, rfl, rfl, .cons (.same rfl) (.cons (listEnumerator_refines h) .nil)⟩
  case FieldList => exact .inl ⟨_, _, rfl, rfl, .cons (.same rfl) (.cons (listFieldMarker_refines h) .nil)⟩
  case DefinitionList => exact .inl ⟨definitionTable E, definitionTable (E.with N), rfl, rfl, definition_refines⟩
  case LiteralBlock => exact .inl ⟨_, _, rfl, rfl, .cons (.same rfl) (.cons (.same rfl) (.cons (.same rfl) .nil))⟩
  case ListTable => exact .inl ⟨_, _, rfl, rfl, .cons (.same rfl) (.cons (.same rfl) .nil)⟩
  case AplusQuestionnaire => exact .inl ⟨_, _, rfl, rfl, .cons (.same rfl) (.cons questionnaire_refines (.cons (.same rfl) .nil))⟩
  all_goals first
    | exact .inl ⟨_, _, rfl, rfl, body⟩
    | exact .inl ⟨_, _, rfl, rfl, .nil⟩
    | exact .inr ⟨_, rfl, rfl⟩

theorem first_refines {ts us : List (Re × Transition)} (h : TableLe ts us) (line : Str) :
    (firstTransition line ts = none ∧ firstTransition line us = none) ∨
      ∃ m f g, firstTransition line ts = some (m, f) ∧ firstTransition line us = some (m, g) ∧ RefinesT f g := by
  induction h with
  | nil => exact .inl ⟨rfl, rfl⟩
  | @cons r f g ts us hf hs ih =>
    simp only [firstTransition]
    cases hc : r.captures line with
    | none => exact ih
    | some m => exact .inr ⟨m, f, g, rfl, rfl, hf⟩

theorem runTable_refines {M M' : Machine} (hsrc : M.src = M'.src) {ts us : List (Re × Transition)} (h : TableLe ts us)
    (s : LoopState) : runTable M s ts = .error .outOfFuel ∨ runTable M s ts = runTable M' s us := by
  have hend : ∀ x, endRound M x = endRound M' x := by intro x; unfold endRound; rw [hsrc]
  have hno : noMatch M s = noMatch M' s := by
    unfold noMatch
    simp only [hend]
  cases h with
  | nil => exact .inr hno
  | @cons r f g ts us hf hs =>
    simp only [runTable]
    rw [hsrc]
    cases M'.src[s.ps.cursor.relativeOffset]? with
    | none => exact .inr rfl
    | some line =>
      simp only
      rcases first_refines (.cons hf hs) line with ⟨h1, h2⟩ | ⟨m, f', g', h1, h2, h3⟩
      · rw [h1, h2]; exact .inr hno
      · rw [h1, h2]
        simp only
        rcases h3 m s.ps with e | e
        · left; rw [e]
        · right; rw [e]
          have : ∀ pp adv ps, afterTransition M s pp adv ps = afterTransition M' s pp adv ps := by
            intro pp adv ps; unfold afterTransition; simp only [hend]
          simp only [this]

theorem machine_refines {M M' : Machine} (hsrc : M.src = M'.src) (ht : ∀ st,
    (∃ ts us, M.table st = .ok ts ∧ M'.table st = .ok us ∧ TableLe ts us) ∨
      ∃ p, M.table st = .error p ∧ M'.table st = .error p) (s : LoopState) :
    parseStep M s = .error .outOfFuel ∨ parseStep M s = parseStep M' s := by
  unfold parseStep
  split
  · exact .inr rfl
  · split
    · exact .inr rfl
    · exact .inr rfl
    · exact .inr rfl
    · rename_i st _ _ _
      rcases ht st with ⟨ts, us, h1, h2, h3⟩ | ⟨p, h1, h2⟩
      · rw [h1, h2]
        exact runTable_refines hsrc h3 s
      · rw [h1, h2]; exact .inr rfl

theorem machine_table (E : Env) (st : State) : (machineOf E).table st = tableOf E st := rfl

theorem machine_src (E : Env) (N : NestedParser) : (machineOf E).src = (machineOf (E.with N)).src := rfl

theorem step_refines (h : NestLe E.nested N) (s : LoopState) :
    parseStep (machineOf E) s = .error .outOfFuel ∨ parseStep (machineOf E) s = parseStep (machineOf (E.with N)) s :=
  machine_refines (machine_src E N) (fun st => by rw [machine_table, machine_table]; exact table_refines h st) s

theorem loop_refines {M M' : Machine}
    (h : ∀ s, parseStep M s = .error .outOfFuel ∨ parseStep M s = parseStep M' s) (n : Nat) (s : LoopState) :
    parseLoop M n s = .error .outOfFuel ∨ parseLoop M n s = parseLoop M' (n + 1) s := by
  induction n generalizing s with
  | zero => exact .inl rfl
  | succ n ih =>
    rw [parseLoop, parseLoop]
    rcases h s with e | e
    · left; rw [e]; rfl
    · rw [e]
      cases parseStep M' s with
      | error p => exact .inr rfl
      | ok r =>
        cases r with
        | done r => exact .inr rfl
        | next s' => exact ih s'

/-- A larger bound gives the same result, unless the smaller one is used up. -/
theorem parserOf_le (n : Nat) : NestLe (parserOf n) (parserOf (n + 1)) := by
  induction n with
  | zero => intro lines doc base line st level; exact .inl rfl
  | succ n ih =>
    intro lines doc base line st level
    exact loop_refines (step_refines (E := { src := lines, baseIndent := base, nested := parserOf n }) ih) (n + 1) _

theorem parserOf_mono {n m : Nat} (h : n ≤ m) : NestLe (parserOf n) (parserOf m) := by
  induction h with
  | refl => intro lines doc base line st level; exact .inr rfl
  | step h ih =>
    intro lines doc base line st level
    rcases ih lines doc base line st level with e | e
    · exact .inl e
    · rcases parserOf_le _ lines doc base line st level with e' | e'
      · left; rw [e, e']
      · right; rw [e, e']

end Rustla
