# Formal model of rustla — design

The model is written in Lean 4 (core library, single Mathlib modules only where named) under
`lean/Verif/`.  It is a hand translation of the Rust text in `/repo/src`; nothing in the sandbox can
compile or run the Rust code, so the tie between code and model is the reading of the code.  Every
definition cites the file and lines it models.

## Layout

* `Verif/Model/*`   executable model, one module per part of the code base (table below);
* `Verif/Spec/*`    independent specifications: plain trees and places in them, histories of operations, outlines,
  tours, LaTeX environments, field lines, blocks, inline markup, plain paragraphs, structured documents, the list of crashes;
* `Verif/Lemmas/*`  helper lemmas;
* `Verif/Props/*`   one file per group of properties: the property theorems (`C01_…`, `C02_…`) and `example`s showing
  that the hypotheses are met by concrete, non-trivial cases;
* `tools/conformance.py` extracts the unit tests of `/repo` (input lines, expected trees and strings) and turns them into
  a Lean program that runs the *model* on them: the model agrees with all tests it covers.  This is a test of the
  translation, not part of any proof;
* `seeded/LOG.jsonl` the record of the wrong programs against which the theorems were tested.

| module | code modelled |
|---|---|
| Model/Options | `src/rustla_options.rs`, `src/main.rs`: command line options |
| Model/LatexTables, Latex | `src/utf8_to_latex.rs` |
| Model/Common, NodeData, NodeTypes | `src/common.rs`, `src/doctree/tree_node_types.rs`: node kinds, permitted children |
| Model/Tree, DocTree | `src/doctree/tree_node.rs`, `tree_zipper.rs`, `mod.rs`, `section_data.rs`, `hyperref_data.rs`, `class_data.rs` |
| Model/Lines | `src/parser/mod.rs`: the readers of text blocks and indented blocks, `src/parser/line_cursor.rs` |
| Model/Unicode, Regex, Patterns | the parts of the `regex` crate and of the Unicode tables that the patterns use; `src/parser/regex_patterns.rs`, `automata.rs` |
| Model/Converters | `src/parser/converters.rs` |
| Model/Inline | `src/parser/mod.rs` `inline_parse`, `src/parser/state_machine/inline.rs` |
| Model/ParserLoop, ParserPrims, Parser | `src/parser/mod.rs` `Parser::parse`, nested parsers; `state_machine/mod.rs`, `transitions.rs` |
| Model/Body, Directives | `src/parser/state_machine/*.rs` (body, lists, definition lists, literal blocks, block quotes, A+ states), `src/parser/directive_parsers.rs` |
| Model/Transforms | `src/doctree/restructuredtext_transforms.rs` |
| Model/Writer | `src/doctree/larst_writer.rs` |
| Model/Program | `src/lib.rs` `run` behind the reading of the input |

`Model/Driver.lean` models `run` as a whole: arguments, the choice of the source, bytes to lines, file names, the choice of
the output and every effect on files; the operating system is an arbitrary `World`.

Not modelled: arguments that are not Unicode, the buffering inside the standard library, the text of messages on
`stderr`, the text of the A+ class file (`larst_writer.rs` `aplus_cls_contents`, a parameter), the states and node kinds that no code reaches (tables
drawn with characters, option lists, line blocks; `parser/table_parsers.rs`).

## Conventions

* Rust `String`/`&str` are `Str = List Char` (Unicode scalar values).  Byte offsets only appear where
  the code observes them, and then they are modelled with `Char.utf8Size`.
* `usize`/`u32` are `Nat`.  Overflow is not modelled (sizes are bounded by memory; points are assumed to stay below
  2³²); *underflow* of a subtraction is modelled as a panic (a debug build; a release build would wrap around instead).
* Numbers are read as by a 64 bit `usize`, resp. `u32`: longer digit strings are refused.
* A panic (`panic!`, `unwrap` on `None`, `todo!`, index out of bounds, underflow) is an explicit error value that names
  the place.
* `&mut` parameters become returned values; `HashMap` becomes an association list with insert-or-replace semantics; where
  the code iterates over one, the order is a parameter (`WriterEnv`), so theorems hold for every order.
* Floating point numbers are kept as exact quotients of natural numbers or source lexemes; how they are printed is a
  parameter (`WriterEnv`).
* Loops and recursion without an evident measure carry a bound (`fuel`); `C54_terminates` shows that a bound that depends
  on the text alone is always enough and that the result does not depend on it, `transform_enough` the same for the
  transforms.
* `char::to_lowercase` is ASCII case folding plus a parameter where properties depend on it.

## Trusted base

* Lean's kernel; the axioms each theorem depends on are at most `propext`, `Classical.choice`, `Quot.sound` (listed per
  theorem at the end).  No axioms are added; `native_decide`, `bv_decide` and the like are not used.  `decide +kernel` is
  used for closed instances (the kernel evaluates them).
* The faithfulness of the hand translation.
* Rust's standard library behaves as documented.  The `regex` crate is modelled by a backtracking matcher with
  leftmost-first semantics; the classes `\w`, `\s`, `\d`, `\p{..}` that occur in the patterns are tables of Unicode 14.

## Per property plan

C01 fold over the argument list; induction.
C02/C03 the escaper as a recursive function with one character of look-ahead; a token grammar as the
specification; faithfulness is expected to fail when a space follows an escaped character: negation plus a partial theorem.
C04 `flatMap` of a table.
C05 `split_whitespace`/join/lowercase; the lowercase mapping is a parameter with stated assumptions.
C06–C09 line readers as list functions, specified with `takeWhile`/`drop`.
C10–C12 converters; canonical numerals are generated by an independent function and read back.
C13–C19 zipper as node + path; the specification is the plain tree obtained by plugging.
C20–C28 document data (sections, hyper references, classes) as state machines; histories are lists of operations.
C29–C31 the main loop over an abstract transition function.
C32–C35 inline parsing over a regex matcher.
C36–C39 directive scanners.
C40–C45 writer: strings per node kind, tree fold; a stack machine is the specification of balance; streams with short writes.
C46–C47 transforms.
C48–C49 writer strings.
C50 end to end theorem over the body state machine.
C51 histories of operations on the hyper reference data.  C52 an invariant relating list nodes to their children.
C53 the states pushed and popped by transitions against the depth of the focus; expected to fail for literal blocks.
C54 a measure on the states of the loop and the size of the text given to nested parsers, which shrinks at every level;
monotonicity of the parser in the bound.  C55 absence of panics by a program logic over the transitions (`Lemmas/Safe*`):
every operation on the tree is safe in a document whose focus and ancestors have an indentation.
C56 documents are given by their structure (`Spec/Documents`), which determines their lines, tree and output; the proof runs the
loop over the lines, with the list of open nodes (`Lemmas/Frames`) as the state and the number of rounds without progress as
a budget (`Lemmas/Runs`, `Unwind`, `Headings`, `Forests`).  Comments and directives: their lines are read by the scanners of options
and contents (`Lemmas/Explicit`, `Scan`, `Leaves`), directives with blocks by opening a node (`Lemmas/Boxes`) or by a run of a
nested parser (`Lemmas/Nested`).  C63 and C64 are the cases of documents with one directive.
C66 a questionnaire is a part of a document that keeps its own state: the question directives are functions that advance the
line and build nodes; a logic of such programs (`Lemmas/Back`, `Questions`) gives the lines they consume and the nodes they
leave, `Lemmas/Quizzes` the transitions of the questionnaire state.
C67 another part of documents (`Part.literal`, and `Part.bare` for a line of two colons, which the loop reads as a section line at the margin and as text elsewhere, and which adds and removes an empty paragraph): `Lemmas/Literals` has the state of the loop behind an announcement, the transitions of
that state and the two readers.
C68 block quotes are a constructor of the blocks of documents (`Blocks.quote`); `Lemmas/Quotes` has the opening of a quote by any kind of
block, the reader of attributions, and why no other line in a quote is taken for one.
C69, C70 lists have bullets, numbers and field names as marks (`Spec/Marks`, `Items.item`); `Lemmas/Marks` has the three patterns and when a list goes
on, `Lemmas/Marked` the opening of items by a nested parser and by fields; `Spec/Lists` writes the two kinds of lists down once more without `Items`.
C71 definition lists are a constructor of the blocks of documents (`Blocks.defs`, `Spec/Terms`); `Lemmas/Terms` has how the line of a term is split, and
the opening and closing of the list; the end of a definition list is only reached by a paragraph or the end of the text (finding).
C65 a calculus for the first match of a pattern of optional parts (`Lemmas/First`).

C72 notes are a constructor of the blocks of documents (`Blocks.note`, `Spec/Notes`); `Lemmas/Notes` has the patterns of footnotes and citations and
how the first paragraph of a note is read by a nested parser; the blocks behind it are read like those of items.  Both theorems follow from C56.

(The status of each property and what is missing is kept in `MANIFEST.json`.)

C57 a text is a list of pieces (`Spec/Markup`); the proof shows for each piece that no pattern before the one of the piece
matches at its place (`Lemmas/Spans`, `Lemmas/Calm`, `Lemmas/Roles`, `Lemmas/Refs`, `Lemmas/Urls`, `Lemmas/Mails`), by induction on the pieces; `Lemmas/Behind` shows that a pattern matches
with an opening character before the markup what it matches without it.

C73 the blocks between two titles are separated by transitions (`Sec.more`, `Paper.more`); `Lemmas/Rules` shows that every open node except
the document and sections refuses a transition and is closed by it, and runs the blocks between the transitions.

C74 sections have the targets before their titles (`Sec.targets`, `Spec/Targets`), and so have directives, comments and paragraphs (`Part.anchored`,
`Part.anchoredText`, `Blocks.anchor`); `Lemmas/Anchors` has the pattern of targets, whose name has a unique end because of the colon, and
`Lemmas/Targets` shows that the open nodes other than sections are closed by those before titles; `AtL` carries the labels that wait for the next
node. `C74_elsewhere` is a theorem about the writer alone.

C75 numbers in marks have a system and may be number signs (`Counter` in `Spec/Marks`); `Lemmas/Counters` computes the first match of the pattern of
enumerators at a counter with its delimiters and what the code reads from it (with C10 and C11 for letters and Roman numerals); the marks of lists and
the induction of C56 use it, with the notion of a mark that would be taken for the next one (`Tag.joins`) and of what the look-ahead accepts on the
line below a mark (`Follows` in `Lemmas/Marks`: a blank or indented line, or a number sign below a number sign).
C76 another part of documents (`Part.table`, `Spec/Tables`): `Lemmas/Tables` reads the bullets of the rows and of the cells by runs of nested parsers, closes the
nodes they leave open and counts the columns, `Lemmas/Widths` has the numbers in the option; the rows and cells are transformed as in C47 (`yields_table`).
C77 the composition of C01, C56 (`C56_wrapped`), C59 and C60 (`Props/Program`): `Spec.Source` says where the source comes from, `Spec.Stem` what the stem of a file name is, at the level of
characters (a byte 46 in UTF-8 is a dot); the end of the run is computed from the absence of panics, not assumed.
C78 admonitions with text behind the marker are a constructor of the blocks of documents (`Blocks.aside`): `Lemmas/Asides` has the scanner of arguments, which
takes the lines of the paragraph, and the run of the nested parser on these lines and the indented ones; both theorems follow from C56.

C58 idempotence of the conversion table on formulas without `#`, `$`, `%`; the violation is a whole document (via C56).
C59 `Spec.Encodes` relates lines and bytes; induction over the bytes; the decoder is Lean's, with its library proofs.
C60–C62 case analysis of `run`; the stored file name is invariant under every document-building step.

C79 option values: the languages of the patterns of lengths and percentages are computed as sets of results (`amount_accepts`, `length_accepts`,
`percentage_accepts`), the number is the longest run of digits and points and hence unique, and the converters are compared with `Spec.Amount` (digits,
point, digits) in both directions.  Not modelled: rounding to floating point numbers; column widths with a sign or an exponent.
C80 code: `Leaf.listing` is the directive `code`, `Leaf.code` are `code-block` and `sourcecode` (`listing_acts`, `code_acts` in Lemmas/Leaves); the
theorems (Props/Listings) are C56 for documents that begin with code and go on with any blocks.
C81 classes: `AtL.classed` (Lemmas/Classes) is the nested parse of the contents without passing over the lines; `runs_classed` (Lemmas/Unwind) reads
the contents once by the nested parser and, from the nodes that it leaves open, a second time by the outer one.

C82 numbered lines: `Spec/Unlisted` lists what may stand below a numbered line so that it is not an item (`Unlisted`), and tight lists (`tightList`).
The action of the enumerator pattern is the one of text at such lines (`enumerator_text`); groups of lines that are read as text are paragraphs
(`prose_paragraphs`, which C50 is a case of).
C83 columns: `Part.columns` (Spec/Questions) is a point of interest with contents `Flow`; `AtL.column` (Lemmas/Columns) is the step at a line `::newcol`
in the state of the nested parser, `AtL.flows` the induction over the contents, `AtL.columns` the nested parse; the theorems are C56 for such documents.
C84 empty directives: at the end of a document the claim holds (`C84_end_*`, from `AtL.empty_end`); `AtL.empty` (Lemmas/Empty) is the step at a directive without content, for any indentation of the next line; the blocks behind it
are then read (`runs_blocks`) into the open directive, and the run ends as in C56.
C85 empty comments: `AtL.dots` (Lemmas/Separators) is the step at two dots alone, which take all lines that are blank or indented by two places (or as the next line); the blocks before
and behind them are read as in C56 (`runs_blocks` twice), so blocks that are not indented are separated, and an indented block is in the comment.
C86 hidden text: the same step with the indentation of the line below the dots (`dotsIndent`) instead of two places; `takenText_lines` gives the text, and a
less indented line behind it starts a block quote, which `runs_blocks` reads as in C56.
C87 relative addresses: `step_failed`, `run_failed` and `failed_output` (Props/Aimed) are the counterparts of `step_moved`, `run_end` and `run_output` for a
transition that fails: the document so far is transformed and written.  `target_word_fails` is that transition, by `C57_markup` for one word.

## Findings

What the model and the proofs show about the code (theorem names in brackets where there is one).

Parser
* A footnote with a name, `.. [#name] text`, is not named by its name: its label and target are replaced by the least free number when it is added
  to the tree (`C22_name_lost`).
* An empty document, or an empty nested block, is a failure of the parse.
* The text of a role is not escaped for LaTeX, while the same text as `*emphasis*` is (`C57_role_not_escaped`).
* The character behind a reference to an address (`` `text <uri>`_ ``) is lost, and the address is converted to lower case
  (`C57_link_swallows`); a title between back quotes is joined with a later reference by several words (`C57_title_swallowed`).
* An address ends at a hyphen or a percent sign of its path, a fragment of one character is not part of it (`C57_address_cut`), it may contain a space if its scheme should
  contain a dot (`C57_spaced_address`), and an
  address without a path whose host ends with a label of one character is plain text (`C57_short_address`).
* An e-mail address becomes a link to the bare address, without `mailto:` (`Piece.latex` in `Spec/Markup`).
* A brace before a reference to a citation is not escaped (`C57_brace_not_escaped`), and markup behind two opening characters, as in
  `("*a*")`, is not recognised (`C57_two_brackets`).
* A formula given by the math role is converted twice: ``:math:`5%` `` becomes `\(5\\\\%\)`, whose comment sign hides the end of the
  formula (`C58_violated`).
* A literal block in a note, another admonition with a fixed title or a list table loses characters at the start of its first line, and its
  other lines become quotations (`C67_nested_violated`); if an announced literal block is missing or a line lacks the quoting character,
  then the rest of the document may be lost without a message on the output (`C67_rest_lost`); two colons directly
  below a line of text make it a title (`C67_title_instead`).  Blank lines at the end of a literal
  block are kept.
* An attribution with three hyphens keeps the third one (`C68_hyphens_violated`); in a note, an attribution loses characters and its
  further lines become quotations (`C68_nested_violated`).
* The first number of a numbered list is not written (`C69_start_lost`); a directive with blocks in a numbered item takes the blocks behind it as well
  and its own blocks become quotations (`C69_directive_violated`).
* The name of a field is written as it is, without escaping and without converting its markup (`C70_name_raw`).
* A definition list followed by anything but a paragraph ends the parse: the rest of the document is lost without a message on the output
  (`C71_rest_lost`; at a line of two dots for all documents: `C71_rest_violated`, and in front of lists: `C71_list_violated`); a term behind a definition that ends with a definition list becomes a term of the inner list (`C71_nested_violated`); a
  paragraph behind a definition list that is followed by a blank line with spaces becomes a term (`C71_blank_violated`).  Terms are written
  without escaping and with their indentation (`Spec.Term.latex`).
* Admonitions with their text behind the marker: one line of text alone takes the unindented paragraphs behind it (`C78_one_line_violated`), a
  line directly behind the text is taken and loses its first characters (`C78_cut_violated`), the program panics if nothing, not even an
  empty line, follows the text (`C78_end_violated`), and with options the next paragraph is joined to the text (`C78_options_violated`).
* The text of a `code` directive is not written, whatever it is (`C80_violated`, `C63_code_lost`); the content of a `class` directive is written twice, whatever it is
  (`C81_violated`, `C64_class_doubled`).
* An enumerated list whose items have one line each, without blank lines between them, is one paragraph with the numerals in its text, whatever the kind of
  numerals (`C82_violated`); only items with number signs are read as a list (C75).
* A figure, an admonition with a title, a point of interest or a directive that the program does not know (for instance `rst-class`), without options and content, contains everything behind it up to the next title, and
  its environment in the output is around all of it (`C84_violated`, for all names and all blocks): the paragraph behind a figure without caption is its caption.
* An empty comment (`..` and a blank line), which ends a list or separates it from a block quote, hides the block quote behind it: its lines are the text of the comment
  (`C85_violated`, for all blocks).
* A comment whose text starts below its dots ends at the first line that is less indented than the first one, even if that line is indented: it is visible, as a block quote
  (`C86_violated`, for all texts).
* A target with a relative address on the next line ends the parse: everything behind it is dropped without a message (`C87_violated`, for all documents).
* A paragraph that starts with a number that is too large (2^64, or `mmmmm.`) lets the parse fail; what follows is lost without a message on the output
  (`C82_large_violated`).
* Text directly below an image, without a blank line, becomes part of the address of the image (`C63_image_violated`); an exercise without the option
  `config` and an anonymous target let the parse fail, and what follows is lost without a message on the output (`C64_submit_violated`, `C74_anonymous_violated`).
* In a point of interest, a line `::newcol` directly below a paragraph, or in a list or an admonition, is text, and what stands behind it in its line is
  lost (`C83_violated`).
* Footnotes: neither their labels nor an anchor are in the output, so that nothing can refer to them (`C72_label_lost`); in blocks that are read by
  a nested parser their second line becomes a block quote behind them (`C72_nested_violated`); a footnote named by one letter becomes a
  comment (`C72_short_name_violated`).
* A line of three punctuation characters between blank lines, or a transition in the first or last line of the text, ends the parse; what follows
  is lost without an error (`C73_ends_violated`).  The same happens to a transition directly behind a list, without a blank line between them
  (`C73_after_list`; `C73_needs_blank` for every state of the parser).
* A mark too many behind emphasised text belongs to the text: `*a**` is the emphasised text `a*` (`C57_doubled_marks`).
* The labels of hyperlink targets before paragraphs, lists, images and everything else but sections, figures and formulas are lost in the output
  (`C74_lost_violated`, `C74_text_lost`, `C74_elsewhere`), so that references to them lead nowhere; a target in an admonition with a fixed title drops the rest of
  the admonition (`C74_nested_violated`); targets named by a single letter, or with a single letter behind the last hyphen, become comments
  (`C74_short_violated`); targets with a reference or an address let the writer crash (`C74_content_violated`).
* Letters that are Roman numerals as well are always read as Roman numerals, so that a list with the items `a.` to `e.` becomes four lists in the output
  (`C75_letters_violated`); if items are not separated by blank lines, a number behind a number sign ends the parse and the rest of the document is
  dropped (`C75_sign_violated`).
* The widths of the columns of a list table are not divided by their sum: `:widths: 30 70` asks for columns thirty and seventy times as wide as the text
  (`C76_widths_violated`).
* A bullet list with five levels followed by another list is a failure of the parse (`C56_depth_violated`).
* Eight kinds of documents crash the parser (`C55_each_happens`): PEP roles with more than four characters; admonition, math
  and code directives at the end of the input; `::` in a nested block behind `para::` + text; an item of a bullet list while
  the focus is not in a list; `footnotes`/`citations` directives; list tables with `:widths:` that are no numbers; a
  hyperlink target, or a paragraph of a questionnaire, that consists of an inline target.
* Three more documents crash behind the parser (`C55_program_each`): a list table with a row bulleted with `•`, a list table
  without a list, any external hyperlink target (`todo!` in the writer).  The parse of the first two *failed*, but
  `run` transforms and writes the document anyway.
* `para::` followed by plain text leaves the focus one level too high (`C53_violated_literal_block`).
* A definition list followed by a bullet list at the same indentation fails the parse (`C53_violated_definition_list`).
* Consecutive numbered items are not a list in general (`C12_violated`); single letters c, d, i, l, m, v, x are read as Roman
  numerals.
* The text indentation of bullet list items is a byte offset in `bullet_list.rs` but a number of characters in `body.rs`:
  lists bulleted with `•`, `‣` or `⁃` never parse.
* The anonymous target counter advances on retries (`C25_violated`).
* The content of `class` is parsed twice; `.. note:: :class: x` parses the marker line again in the nested parser.
* Hyperlink targets with one-character names are read as comments; unrecognised URIs fail the whole parse.
* `submit` reads options with underscores; an input's `dropdown:` keeps only the part behind the last colon.
* The body indentation of a questionnaire is taken from two lines further on.
* `pick-one` and `pick-any` write the option `class` as `id=` (`C66_output`).
* An option line `:a:` followed by a tab ends the arguments but is not read as an option.
* The key of an exercise ends at the first character that is no ASCII letter or digit: `my_key 10` is read as the key `my`
  without points, which then default to ten (`C65_exercise`).
* A directive without options and content takes the indentation of its body from whatever line follows.
* Closing more than ten nested sections at once exceeds the limit of retries: the parse fails.
* Inline: a phrase reference with an embedded URI consumes the character behind it; contents of roles, citations and
  invalid URIs are not escaped for LaTeX; a quoted start string swallows the markup behind it (`C35_swallows_markup`);
  ranges of delimiters are lost because `-` separates them (`C35_lost_ranges`); the name of a group in a pattern is misspelled
  (`embedded_uri_container`).

Transforms and writer
* `write` instead of `write_all`: text is lost on streams that accept less (`C45_violated`).
* Raw nodes and roles named `begin`/`end` unbalance environments (`C41_violated_raw`, `C41_violated_role`).
* The `code` directive drops its text (`C49_violated`).
* External and indirect hyperlink targets and substitution references are `todo!` (`C42_violated_target`,
  `C42_violated_substitution`).
* The test for `!` in hints is inverted; the options of unknown directives are written in random order; the scale of images
  is written with `%`, which comments out the rest of the line; `\footnotemark` is not terminated.
* Children of the rows of a list table behind the nested list are dropped; a row with an empty nested list underflows.
* `--to-file` panics when the source comes from standard input (`C60_no_place`); when the last argument is an option, or
  names nothing that exists, standard input is read without a word.
* The output file is created, and an earlier one truncated, before anything is written: a panic of the writer destroys
  the output of the previous run (`C61_earlier_output_violated`).
* A source called `x.tex` is its own output with `--to-file` and is overwritten (`C62_source_violated`).
* The faithfulness of LaTeX escapes fails when a space follows an escaped character (C03).

<!-- axioms -->
## Axioms per theorem

* none: `C04_wrong_entries`, `C04_math_command_merges`, `C06_short_blank_line_panics`, `C18_unknown_id_panics`, `C35_lost_ranges`
* propext: `C01_unknown_arguments_ignored`, `C03_not_injective`, `C03_underscore_adds_space`, `C03_protected_letter_merges`, `C04_math_homomorphism`, `C06_strip_exact`, `C06_strip_refuse`, `C15_when_refused`, `C22_manual_after_auto_collides`, `C24_violated`, `C26_labels_accumulate`, `C26_citation_forgets_targets`, `C26_refused_push_loses_labels`, `C28_classes_to_next_node`, `C28_push_child_ignores_classes`, `C07_paragraph`, `C32_pep_panics`, `C33_runs`, `C35_text`, `C35_swallows_markup`, `C40_document_order`, `C40_focus`, `C40_complete`, `C41_violated_raw`, `C48_comment_lines`, `C49_violated`, `C57_needs_following`, `C57_role_not_escaped`, `C57_link_swallows`, `C57_title_swallowed`, `C57_long_pep`, `C57_address_cut`, `C57_spaced_address`, `C57_short_address`, `C57_brace_not_escaped`, `C57_two_brackets`, `C65_parts`, `C74_elsewhere`
* propext, Quot.sound: `C01_options`, `C04_math_unmapped`, `C05_idempotent`, `C05_same_name`, `C05_canonical`, `C06_strip_sound`, `C13_parent`, `C15_push_appends`, `C15_refused_push_changes_nothing`, `C23_symbolic_labels`, `C24_labels`, `C24_alternating_partial`, `C25_violated`, `C26_blank_keeps_pending`, `C26_labels_attach_partial`, `C27_violated`, `C28_classes_to_next_focus`, `C07_behind_the_end`, `C09_skip_empty`, `C09_skip_to_next_block`, `C10_alpha`, `C10_injective`, `C11_upper`, `C11_case`, `C11_lower`, `C11_rejects_partial`, `C11_accepts_malformed`, `C12_separated_partial`, `C35_iff`, `C35_every_opener`, `C35_opener`, `C35_ascii`, `C35_needs_lookbehind`, `C29_no_infinite_run`, `C29_bound`, `C29_returns`, `C30_eof_only_at_end`, `C31_lock_step`, `C51_records_kept`, `C51_citation_recorded`, `C51_footnote_reference_recorded`, `C53_violated_literal_block`, `C53_violated_definition_list`, `C43_sections`, `C44_wrapper`, `C46_captions`, `transform_enough`, `C41_escaped_text`, `C41_comment`, `C41_violated_role`, `C42_violated_target`, `C42_violated_substitution`, `C45_partial`, `C45_violated`, `C48_comments`, `C49_code_block_partial`, `C49_literal_block_partial`, `FieldLine_unique`, `OptionLine_unique`, `Spec.Groups.unique`, `C56_depth_violated`, `C58_once_partial`, `C63_image_violated`, `C63_code_lost`, `C64_submit_violated`, `C64_class_doubled`, `C65_exercise`, `C67_title_instead`, `C67_nested_violated`, `C67_rest_lost`, `C68_hyphens_violated`, `C68_nested_violated`, `C69_directive_violated`, `C70_name_raw`, `C71_rest_lost`, `C71_nested_violated`, `C71_blank_violated`, `C72_label_lost`, `C72_nested_violated`, `C72_short_name_violated`, `C73_ends_violated`, `C73_after_list`, `C74_anonymous_violated`, `C74_lost_violated`, `C74_nested_violated`, `C74_short_violated`, `C74_content_violated`, `C75_letters_violated`, `C75_sign_violated`, `C78_one_line_violated`, `C78_cut_violated`, `C78_end_violated`, `C78_options_violated`, `C79_numbers`, `C79_image_alignments`, `C79_figure_alignments`, `C82_large_violated`, `C83_violated`
* propext, Classical.choice, Quot.sound: `C02_no_live_special`, `C03_faithful_partial`, `C03_injective_partial`, `C04_math_mapped`, `caseMap_ascii`, `C13_child_then_parent`, `C13_child`, `C14_navigation_preserves_document`, `C15_push_and_focus`, `C18_walk_by_id`, `C19_walk_to_section`, `C16_permitted_pairs`, `C16_readable`, `C16_leaves`, `C16_parsed_pairs`, `C17_unique_ids`, `C17_parsed_ids`, `C20_section_levels`, `C20_bijection`, `C22_least_free_partial`, `C22_footnote_node_partial`, `C22_name_lost`, `C25_anonymous_pairing_partial`, `C07_text_block`, `C08_indented_block`, `C08_when_it_panics`, `C12_lookahead_partial`, `C12_violated`, `C32_step`, `C32_terminates`, `C32_consumes`, `C33_plain`, `C33_alternate`, `C33_text`, `C33_text_verbatim`, `C34_newlines`, `C34_paragraph`, `C29_concrete_no_infinite_run`, `C30_cursor_monotone`, `C30_concrete_monotone`, `C30_concrete_eof`, `C21_sections_nest`, `C39_recorded_points`, `C39_written_points`, `C52_recorded_items`, `C52_written_items`, `C44_parsed`, `C47_list_tables`, `C41_balanced_partial`, `C42_made_kinds`, `C42_written_partial`, `C36_arguments`, `C37_options`, `C38_math_blocks`, `C38_names`, `Spec.Groups.flatten`, `C50_paragraphs`, `C50_output`, `C54_terminates`, `C54_any_bound`, `C55_only_known_crashes`, `C55_each_happens`, `C55_program`, `C55_program_each`, `C56_documents`, `C56_wrapped`, `C56_output`, `C57_markup`, `C57_doubled_marks`, `C58_violated`, `C59_line_endings`, `C59_every_text`, `C59_same_run`, `C59_refused`, `C60_files`, `C60_stdout`, `C60_no_place`, `C60_stdout_complete`, `C60_file_complete`, `C61_no_effect_before_writing_partial`, `C61_earlier_output_violated`, `C62_source_kept_partial`, `C62_source_violated`, `C63_nodes`, `C63_output`, `C64_nodes`, `C64_output`, `C66_nodes`, `C66_output`, `C67_nodes`, `C67_output`, `C67_bare_nodes`, `C67_bare_output`, `C68_nodes`, `C68_output`, `C69_nodes`, `C69_output`, `C69_start_lost`, `C70_nodes`, `C70_output`, `C71_nodes`, `C71_output`, `C71_rest_nodes_violated`, `C71_rest_violated`, `C71_list_nodes_violated`, `C71_list_violated`, `C72_nodes`, `C72_output`, `C73_nodes`, `C73_output`, `C73_needs_blank`, `C74_nodes`, `C74_output`, `C74_formula_nodes`, `C74_formula_output`, `C74_figure_nodes`, `C74_figure_output`, `C74_text_lost`, `C75_nodes`, `C75_output`, `C76_nodes`, `C76_output`, `C76_numbers`, `C76_widths_violated`, `C77_stdout`, `C77_file`, `C78_nodes`, `C78_output`, `C79_lengths`, `C79_percentages`, `C79_widths`, `C80_blocks`, `C80_node_partial`, `C80_output_partial`, `C80_violated`, `C81_nodes_partial`, `C81_violated`, `C82_paragraphs_partial`, `C82_output_partial`, `C82_violated`, `C83_nodes_partial`, `C83_output_partial`, `C84_nodes_violated`, `C84_violated`, `C84_end_nodes_partial`, `C84_end_partial`, `C85_nodes_partial`, `C85_output_partial`, `C85_nodes_violated`, `C85_violated`, `C86_nodes_partial`, `C86_output_partial`, `C86_nodes_violated`, `C86_violated`, `C87_nodes_violated`, `C87_violated`
