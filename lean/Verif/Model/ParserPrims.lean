import Verif.Model.ParserLoop
import Verif.Model.Inline
/-!
# What transition functions are made of

Operations on the document, the cursor and the section level that the transition functions of
`/repo/src/parser/state_machine` and `/repo/src/parser/directive_parsers.rs` use, and the helpers of `Parser` they share.
-/
namespace Rustla

/-- A parser for nested blocks: `Parser::new(lines, doctree, base_indent, base_line, state, section_level).parse()`,
`/repo/src/parser/mod.rs` l.74-303. -/
abbrev NestedParser := List Str → DocTree → Nat → Nat → State → Nat → Run ParsingResult

/-- What transition functions read but do not change: `src_lines` and `base_indent` of `TransitionMethod`,
`/repo/src/parser/types_and_aliases.rs` l.22-30, and the parser they call on nested blocks. -/
structure Env where
  src : List Str
  baseIndent : Nat
  nested : NestedParser

/-- What transition functions return.
(`/repo/src/parser/types_and_aliases.rs` l.57-72) -/
abbrev Moves := PushOrPop × LineAdvance

namespace P

/-- A computation that may panic, for instance `unwrap`.
(`/repo/src/parser/state_machine/body.rs` l.14-2260) -/
def lift {α : Type} (r : Run α) : P α := fun s =>
  match r with
  | .ok a => .ok a s
  | .error p => .panic p

/-- The document.
(`/repo/src/parser/types_and_aliases.rs` l.21-30) -/
def doc : P DocTree := fun s => .ok s.doc s

/-- The line cursor.
(`/repo/src/parser/types_and_aliases.rs` l.21-30) -/
def cursor : P LineCursor := fun s => .ok s.cursor s

/-- `line_cursor.relative_offset()`.
(`/repo/src/parser/line_cursor.rs` l.34-36) -/
def offset : P Nat := fun s => .ok s.cursor.relativeOffset s

/-- `*section_level`.
(`/repo/src/parser/types_and_aliases.rs` l.21-30) -/
def level : P Nat := fun s => .ok s.sectionLevel s

/-- Assignment to `*section_level`.
(`/repo/src/parser/types_and_aliases.rs` l.21-30) -/
def setLevel (n : Nat) : P Unit := fun s => .ok () { s with sectionLevel := n }

/-- `return TransitionResult::Failure { doctree, .. }`.
(`/repo/src/parser/types_and_aliases.rs` l.57-72) -/
def failed {α : Type} : P α := fun s => .fail s.doc

/-- `line_cursor.increment_by(n)`.
(`/repo/src/parser/line_cursor.rs` l.44-46) -/
def advance (n : Nat) : P Unit := fun s => .ok () { s with cursor := s.cursor.incrementBy n }

/-- `Parser::skip_empty_lines`.
(`/repo/src/parser/mod.rs` l.809-825) -/
def skipEmpty (src : List Str) : P Unit := fun s => .ok () { s with cursor := (skipEmptyLines src s.cursor).1 }

/-- The result of an operation that may refuse: on `Err(tree)` return a failure with the document.
(`/repo/src/doctree/mod.rs` l.167-219) -/
def orFail (r : Run (Bool × DocTree)) : P Unit := fun s =>
  match r with
  | .error p => .panic p
  | .ok (true, d) => .ok () { s with doc := d }
  | .ok (false, d) => .fail d

/-- `doctree = match doctree.push_data_and_focus(data) { Ok(tree) => tree, Err(tree) => return Failure }`.
(`/repo/src/doctree/mod.rs` l.167-187) -/
def pushFocus (data : NodeType) : P Unit := fun s => orFail (s.doc.pushDataAndFocus data) s

/-- `doctree = match doctree.push_data(data) { Ok(tree) => tree, Err(tree) => return Failure }`.
(`/repo/src/doctree/mod.rs` l.189-219) -/
def push (data : NodeType) : P Unit := fun s => orFail (s.doc.pushData data) s

/-- `match doctree.push_data(data)` with the two outcomes told apart.
(`/repo/src/doctree/mod.rs` l.189-219) -/
def tryPush (data : NodeType) : P Bool := fun s =>
  match s.doc.pushData data with
  | .error p => .panic p
  | .ok (b, d) => .ok b { s with doc := d }

/-- `push_data` for each of the nodes, `/repo/src/parser/state_machine/body.rs` l.2240-2253. -/
def pushAll : List NodeType → P Unit
  | [] => pure ()
  | d :: ds => do push d; pushAll ds

/-- `TreeNode::new(data, node_count, None, None)` and `push_child`, `/repo/src/parser/state_machine/body.rs` l.681-694. -/
def pushNode (data : NodeType) : P Unit := fun s =>
  orFail (s.doc.pushChild (TreeNode.new data s.doc.nodeCount none none)) s

/-- `doctree = doctree.focus_on_parent()`.
(`/repo/src/doctree/mod.rs` l.152-165) -/
def parent : P Unit := fun s =>
  match s.doc.focusOnParent with
  | .error p => .panic p
  | .ok d => .ok () { s with doc := d }

/-- `doctree.pop_child()`.
(`/repo/src/doctree/mod.rs` l.223-226) -/
def popChild : P Unit := fun s => .ok () { s with doc := s.doc.popChild.2 }

/-- Change of the data of the focused node through `doctree.mut_node_data()`.
(`/repo/src/doctree/mod.rs` l.432-435) -/
def mapData (f : NodeType → NodeType) : P Unit := fun s =>
  .ok () { s with doc := s.doc.setNodeData (f s.doc.sharedData) }

/-- `doctree.next_anon_target_label()`.
(`/repo/src/doctree/mod.rs` l.628-635) -/
def anonTarget : P Str := fun s => .ok s.doc.nextAnonTargetLabel.1 { s with doc := s.doc.nextAnonTargetLabel.2 }

/-- `doctree.push_to_internal_target_stack(label)`.
(`/repo/src/doctree/mod.rs` l.579-582) -/
def internalTarget (label : Str) : P Unit := fun s => .ok () { s with doc := s.doc.pushInternalTarget label }

/-- `Parser::read_text_block(src_lines, line_cursor.relative_offset(), true, true, alignment, true)`: the lines (and
their number); the function never returns `Err`.
(`/repo/src/parser/mod.rs` l.546-612) -/
def textBlock (E : Env) (alignment : Option Nat) : P (List Str × Nat) := fun s =>
  match readTextBlock E.src s.cursor.relativeOffset true true alignment true with
  | .error p => .panic p
  | .ok r => .ok r s

/-- `Parser::inline_parse(text, Some(&mut doctree), line_cursor)`; `NoNodes` is the empty list.
(`/repo/src/parser/mod.rs` l.375-442) -/
def inlineDoc (text : Str) : P (List NodeType) := fun s =>
  match inlineParse (some s.doc) s.cursor text with
  | .error p => .panic p
  | .ok (nodes, d, c) => .ok nodes { s with doc := d.getD s.doc, cursor := c }

/-- `Parser::inline_parse(text, None, line_cursor)`; `NoNodes` is the empty list.
(`/repo/src/parser/mod.rs` l.375-442) -/
def inlineNone (text : Str) : P (List NodeType) := fun s =>
  match inlineParse none s.cursor text with
  | .error p => .panic p
  | .ok (nodes, _, c) => .ok nodes { s with cursor := c }

/-- `Parser::new(&lines, doctree, base_indent, line_cursor.sum_total(), state, *section_level).parse()`, where a failure
of the nested parser is a failure of the transition, e.g. `/repo/src/parser/state_machine/enumerated_list.rs` l.113-133;
the result is the stack of the nested parser. -/
def nest (E : Env) (lines : List Str) (baseIndent : Nat) (st : State) : P (List State) := fun s =>
  match E.nested lines s.doc baseIndent s.cursor.sumTotal st s.sectionLevel with
  | .error p => .panic p
  | .ok (.eof d stack) => .ok stack { s with doc := d }
  | .ok (.emptyStateStack d stack) => .ok stack { s with doc := d }
  | .ok (.failure d) => .fail d

/-- `read_indented_block` where an `Err` is a failure, e.g. `/repo/src/parser/state_machine/enumerated_list.rs`
l.90-110: the lines and their number. -/
def indentedBlock (E : Env) (untilBlank : Bool) (blockIndent firstIndent : Option Nat) (force : Bool) :
    P (List Str × Nat) := fun s =>
  match readIndentedBlock E.src s.cursor.relativeOffset untilBlank true blockIndent firstIndent force with
  | .error p => .panic p
  | .ok (.ok lines _ offset _) => .ok (lines, offset) s
  | .ok .emptyLinesErr => .fail s.doc

end P

/-- `a - b` of `usize`: underflow panics.
(`/repo/src/parser/state_machine/body.rs` l.14-2260) -/
def checkedSub (a b : Nat) (at_ : String) : Run Nat := if a < b then .error (.underflow at_) else .ok (a - b)

/-- `Parser::parent_indent_matches`, `/repo/src/parser/mod.rs` l.741-756. -/
def parentIndentMatches (parent : NodeType) (indent : Nat) : Run IndentationMatch :=
  match parent.bodyIndent with
  | none => .error (.explicit "mod.rs parent_indent_matches")
  | some b => .ok (if b > indent then .tooLittle else if b = indent then .justRight else .tooMuch)

/-- Leave the focused node and its state, e.g. `/repo/src/parser/state_machine/body.rs` l.75-82. -/
def leave : P Moves := do
  P.parent
  pure (.pop, none)

/-- Open a block quote, e.g. `/repo/src/parser/state_machine/body.rs` l.54-74. -/
def enterQuote (indent : Nat) : P Moves := do
  P.pushFocus (.BlockQuote indent)
  pure (.push [.BlockQuote], none)

/-- The match on `Parser::parent_indent_matches` that most transition functions share, e.g.
`/repo/src/parser/state_machine/body.rs` l.34-83: act if the indentation is that of the focused node, open a block quote
if it is larger, leave the focused node if it is smaller. -/
def atIndent (indent : Nat) (action : P Moves) : P Moves := do
  let d ← P.doc
  match ← P.lift (parentIndentMatches d.sharedData indent) with
  | .justRight => action
  | .tooMuch => enterQuote indent
  | .tooLittle => leave

/-- `Parser::parse_first_node_block`, `/repo/src/parser/mod.rs` l.446-522, with the failure handling of its callers:
the stack of the nested parser and the number of lines of the block. -/
def parseFirstNodeBlock (E : Env) (textIndent : Nat) (firstIndent : Option Nat) (st : State) :
    P (List State × Nat) := do
  let first ← P.lift (checkedSub (firstIndent.getD textIndent) E.baseIndent "mod.rs parse_first_node_block")
  let block ← P.lift (checkedSub textIndent E.baseIndent "mod.rs parse_first_node_block")
  let (lines, offset) ← P.indentedBlock E true (some block) (some first) false
  let stack ← P.nest E lines textIndent st
  pure (stack, offset)

/-- The line at the cursor: `src_lines.get(line_cursor.relative_offset()).unwrap()`.
(`/repo/src/parser/state_machine/body.rs` l.14-2260) -/
def currentLine (E : Env) (at_ : String) : P Str := do
  match E.src[← P.offset]? with
  | some l => pure l
  | none => P.lift (.error (.unwrapNone at_))

end Rustla
