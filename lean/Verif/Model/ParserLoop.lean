import Verif.Model.DocTree
import Verif.Model.Lines
import Verif.Model.Regex
/-!
# The main loop of the parser

`/repo/src/parser/mod.rs` l.38-303, `/repo/src/parser/types_and_aliases.rs`, `/repo/src/parser/state_machine/mod.rs`.
The loop is modelled for an arbitrary source and arbitrary transition functions; the concrete transition
functions are in `Verif.Model.Body`, `Verif.Model.Directives` and `Verif.Model.Parser`.
-/
namespace Rustla

/-- `State`, `/repo/src/parser/state_machine/mod.rs` l.34-140. -/
inductive State where
  | Admonition | AplusMultiCol | AplusQuestionnaire | AplusPickOne | AplusPickAny | Body | Section | BlockQuote
  | BulletList | Citation | DefinitionList | EnumeratedList | HyperlinkTarget | ListItem | FieldList | Figure
  | Footnote | InternalHyperlinkTarget | OptionList | LineBlock | ListTable | ExtensionOptions | Line
  | LiteralBlock | Failure | EOF
  deriving DecidableEq, Repr

/-- `PushOrPop`, `/repo/src/parser/types_and_aliases.rs` l.79-87. -/
inductive PushOrPop where
  | push (states : List State)
  | pop
  | neither
  deriving DecidableEq, Repr

/-- What a transition function reads and changes: the document, the line cursor and the section level, the mutable
arguments of `TransitionMethod`, `/repo/src/parser/types_and_aliases.rs` l.22-30. -/
structure PS where
  doc : DocTree
  cursor : LineCursor
  sectionLevel : Nat

/-- Outcome of a computation of the parser: a value with the new state, a failure that carries the document
(`TransitionResult::Failure`, `/repo/src/parser/types_and_aliases.rs` l.71; simplification: the message is dropped),
or a panic. -/
inductive Out (α : Type) where
  | ok (a : α) (s : PS)
  | fail (d : DocTree)
  | panic (p : Panic)

/-- A computation of the parser.
(`/repo/src/parser/types_and_aliases.rs` l.21-30, l.57-72) -/
def P (α : Type) : Type := PS → Out α

namespace P

/-- The computation that returns a value.
(`/repo/src/parser/types_and_aliases.rs` l.57-72) -/
protected def pure {α : Type} (a : α) : P α := fun s => .ok a s

/-- One computation after the other.
(`/repo/src/parser/types_and_aliases.rs` l.57-72) -/
protected def bind {α β : Type} (x : P α) (f : α → P β) : P β := fun s =>
  match x s with
  | .ok a s' => f a s'
  | .fail d => .fail d
  | .panic p => .panic p

instance : Monad P where
  pure := P.pure
  bind := P.bind

end P

/-- `LineAdvance`, `/repo/src/parser/types_and_aliases.rs` l.91-94: `none` or a number of lines. -/
abbrev LineAdvance := Option Nat

/-- `TransitionMethod` / `TransitionResult`, `/repo/src/parser/types_and_aliases.rs` l.22-72: the source and the base
indentation are fixed for one parser, so they are not repeated here. -/
abbrev Transition := Match → P (PushOrPop × LineAdvance)

/-- `ParsingResult`, `/repo/src/parser/types_and_aliases.rs`.  Simplification: messages are dropped. -/
inductive ParsingResult where
  | eof (doc : DocTree) (stack : List State)
  | emptyStateStack (doc : DocTree) (stack : List State)
  | failure (doc : DocTree)

/-- The parts of a `Parser` that do not change: its source lines and the table of transitions of each state,
`/repo/src/parser/mod.rs` l.40-66 and `/repo/src/parser/state_machine/mod.rs` l.200-255. -/
structure Machine where
  src : List Str
  table : State → Run (List (Re × Transition))

/-- The parts of a `Parser` that change, with the two counters of `parse`; the top of the stack is its last element.
(`/repo/src/parser/mod.rs` l.40-64, l.94-110) -/
structure LoopState where
  ps : PS
  stack : List State
  changed : Bool
  count : Nat

/-- Result of one round: go on or stop.
(`/repo/src/parser/mod.rs` l.113-303) -/
inductive Round where
  | next (s : LoopState)
  | done (r : ParsingResult)

/-- The `for` loop over the transitions up to the first match, `/repo/src/parser/mod.rs` l.165-189. -/
def firstTransition (line : Str) : List (Re × Transition) → Option (Match × Transition)
  | [] => none
  | (r, t) :: ts =>
    match r.captures line with
    | some m => some (m, t)
    | none => firstTransition line ts

/-- The end of a round, `/repo/src/parser/mod.rs` l.292-295: past the last line the state `EOF` is pushed. -/
def endRound (M : Machine) (s : LoopState) : Round :=
  if s.ps.cursor.relativeOffset ≥ M.src.length then .next { s with stack := s.stack ++ [.EOF] } else .next s

/-- Changes to the stack requested by a transition, `/repo/src/parser/mod.rs` l.205-232.  Popping from an empty stack
(the document has been moved out of the parser) panics. -/
def applyPushOrPop (stack : List State) : PushOrPop → Run (List State)
  | .push states => .ok (stack ++ states)
  | .pop => if stack.isEmpty then .error (.explicit "mod.rs parse: pop from empty stack") else .ok stack.dropLast
  | .neither => .ok stack

/-- Advancing the cursor after a transition, `/repo/src/parser/mod.rs` l.234-236. -/
def applyAdvance (c : LineCursor) : LineAdvance → LineCursor
  | some n => c.incrementBy n
  | none => c

/-- A successful transition, `/repo/src/parser/mod.rs` l.199-248. -/
def afterTransition (M : Machine) (s : LoopState) (pp : PushOrPop) (adv : LineAdvance) (ps : PS) : Run Round := do
  let stack ← applyPushOrPop s.stack pp
  let cursor := applyAdvance ps.cursor adv
  let ps := { ps with cursor := cursor }
  if cursor.sumTotal = s.ps.cursor.sumTotal then
    pure (endRound M { ps := ps, stack := stack, changed := false, count := s.count + 1 })
  else
    pure (endRound M { ps := ps, stack := stack, changed := true, count := 0 })

/-- No transition of the topmost state matches, `/repo/src/parser/mod.rs` l.266-290: leave the state and the node. -/
def noMatch (M : Machine) (s : LoopState) : Run Round := do
  let doc ← s.ps.doc.focusOnParent
  pure (endRound M { s with ps := { s.ps with doc := doc }, stack := s.stack.dropLast, changed := false })

/-- A round in a state with the given transitions, `/repo/src/parser/mod.rs` l.164-295. -/
def runTable (M : Machine) (s : LoopState) : List (Re × Transition) → Run Round
  | [] => noMatch M s
  | t :: ts =>
    match M.src[s.ps.cursor.relativeOffset]? with
    | none => .ok (.done (.failure s.ps.doc))
    | some line =>
      match firstTransition line (t :: ts) with
      | none => noMatch M s
      | some (m, f) =>
        match f m s.ps with
        | .ok (pp, adv) ps => afterTransition M s pp adv ps
        | .fail d => .ok (.done (.failure d))
        | .panic p => .error p

/-- One round of the loop of `parse`, `/repo/src/parser/mod.rs` l.94-303. -/
def parseStep (M : Machine) (s : LoopState) : Run Round :=
  if s.changed = false ∧ s.count ≥ 10 then .ok (.done (.failure s.ps.doc))
  else
    match s.stack.getLast? with
    | none => .ok (.done (.emptyStateStack s.ps.doc []))
    | some .EOF => .ok (.done (.eof s.ps.doc s.stack.dropLast))
    | some .Failure => .ok (.done (.failure s.ps.doc))
    | some st => do runTable M s (← M.table st)

/-- The loop of `parse`, `/repo/src/parser/mod.rs` l.94-303, for at most `fuel` rounds. -/
def parseLoop (M : Machine) : Nat → LoopState → Run ParsingResult
  | 0, _ => .error .outOfFuel
  | fuel + 1, s => do
    match ← parseStep M s with
    | .next s' => parseLoop M fuel s'
    | .done r => pure r

/-- The state of a new parser, `Parser::new`, `/repo/src/parser/mod.rs` l.74-90. -/
def LoopState.init (doc : DocTree) (baseLine : Nat) (st : State) (sectionLevel : Nat) : LoopState where
  ps := { doc := doc, cursor := { offset := 0, baseline := baseLine }, sectionLevel := sectionLevel }
  stack := [st]
  changed := false
  count := 0

end Rustla
