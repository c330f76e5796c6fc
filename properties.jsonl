{"id": "C01", "title": "Command line flags resolve order-independently except the output pair", "statement": "For every argument list, --full-doc and --aplus-cls take effect iff they occur somewhere; of --to-stdout/--to-file the last occurrence wins and stdout is the default; every other argument has no effect on the options.", "quantifier": "all lists of argument strings", "why_tests_cant": "argument lists are unbounded and may repeat, reorder and interleave flags arbitrarily", "anchors": ["src/rustla_options.rs: ruSTLaOptions::new"]}
{"id": "C02", "title": "Escaped text contains no live LaTeX special character", "statement": "Text passed through the text escaper never contains one of the LaTeX special characters ^ _ ~ $ { } # & % \\ except as part of one of the escape sequences of the table or a character the author explicitly protected with a backslash.", "quantifier": "all Unicode strings", "why_tests_cant": "the input is any string; specials can sit next to any other character, at either end, or be doubled", "anchors": ["src/utf8_to_latex.rs: unicode_text_to_latex"]}
{"id": "C03", "title": "Text escaping is faithful", "statement": "Two different backslash-free source texts are never turned into the same LaTeX text, so nothing the author typed is lost.", "quantifier": "all pairs of backslash-free strings", "why_tests_cant": "injectivity is a statement about pairs of inputs of any length", "anchors": ["src/utf8_to_latex.rs: unicode_text_to_latex"]}
{"id": "C04", "title": "Math conversion works character by character", "statement": "Converting a concatenation of two math strings gives the concatenation of their conversions; characters that are not in the table are copied unchanged; the empty string stays empty.", "quantifier": "all pairs of strings", "why_tests_cant": "homomorphism over unbounded strings", "anchors": ["src/utf8_to_latex.rs: unicode_math_to_latex"]}
{"id": "C05", "title": "Reference name normalisation is canonical", "statement": "Normalising a reference name is idempotent, and two names that differ only in letter case and in the amount or kind of whitespace (including leading/trailing) normalise to the same name; the result has no leading, trailing or doubled whitespace.", "quantifier": "all strings", "why_tests_cant": "whitespace runs and positions are unbounded", "anchors": ["src/common.rs: normalize_refname"]}
{"id": "C06", "title": "Dedenting removes exactly the common indentation", "statement": "When every non-blank line of a block is indented by at least n columns, stripping n columns removes exactly n whitespace characters from the front of each line and changes nothing else; re-indenting gives the block back.", "quantifier": "all lists of lines and indents", "why_tests_cant": "blocks have any number of lines of any length", "anchors": ["src/common.rs: strip_indent"]}
{"id": "C07", "title": "A text block is the maximal run of acceptable lines", "statement": "Reading a text block from line k returns exactly the source lines from k up to (not including) the first blank line (or the end of input, or the first line with a forbidden indent), in order, and reports their number as the offset.", "quantifier": "all line lists, start lines and reader settings", "why_tests_cant": "start position, length and position of blank or indented lines are unbounded", "anchors": ["src/parser/mod.rs: Parser::read_text_block"]}
{"id": "C08", "title": "An indented block neither drops nor duplicates lines", "statement": "Reading an indented block returns a prefix of the remaining lines (with indentation removed, if asked for) without skipping or repeating any, the reported offset is the number of source lines the parser has to skip, and it never exceeds the number of lines left.", "quantifier": "all line lists, start lines and reader settings", "why_tests_cant": "arbitrary mixtures of blank, indented and dedented lines", "anchors": ["src/parser/mod.rs: Parser::read_indented_block"]}
{"id": "C09", "title": "Blank-line skipping lands on the first non-blank line", "statement": "Skipping empty lines moves the cursor forward only over blank lines and stops exactly at the first non-blank line or at the end of input; it never moves backwards.", "quantifier": "all line lists and cursor positions", "why_tests_cant": "runs of blank lines are unbounded", "anchors": ["src/parser/mod.rs: skip_empty_lines", "src/parser/line_cursor.rs: LineCursor"]}
{"id": "C10", "title": "Alphabetic enumerators count a=1 .. z=26", "statement": "A single ASCII letter used as an enumerator denotes its position in the alphabet regardless of case, different letters of one case denote different numbers, and no other character is accepted.", "quantifier": "all characters", "why_tests_cant": "domain is every Unicode scalar value", "anchors": ["src/parser/converters.rs: alpha_to_usize"]}
{"id": "C11", "title": "Roman enumerators are read with their standard value", "statement": "Every canonical Roman numeral for 1..3999, in upper or lower case, is read as the number it denotes; strings that are not Roman numerals are rejected.", "quantifier": "all strings of letters / all numbers 1..3999", "why_tests_cant": "the accepted language is a set of strings; a unit test samples a few", "anchors": ["src/parser/converters.rs: upper_roman_to_usize, lower_roman_to_usize"]}
{"id": "C12", "title": "Consecutively numbered items form one enumerated list", "statement": "If an enumerated item numbered n is directly followed by a line with the same enumerator style numbered n+1, the first line is recognised as a list item.", "quantifier": "all numbers n and all enumerator styles", "why_tests_cant": "numbers and styles range over an unbounded set", "anchors": ["src/parser/converters.rs: enum_captures_to_int_kind_and_delims", "src/parser/state_machine/body.rs: is_enumerated_list_item / enumerator"]}
{"id": "C13", "title": "Focusing a child and returning is the identity", "statement": "For every document tree position, moving the focus to any existing child and back to the parent gives back the same document with the same focus; asking for a missing child or for the parent of the root is an error and leaves the document unchanged.", "quantifier": "all trees, positions and child indexes", "why_tests_cant": "trees have unbounded width and depth; the implementation reorders the child vector while a child is focused", "anchors": ["src/doctree/tree_zipper.rs: focus_on_child, focus_on_parent"]}
{"id": "C14", "title": "Navigation never changes the document", "statement": "After any sequence of navigation operations the document obtained by walking back to the root is the one obtained by walking to the root before the sequence.", "quantifier": "all trees and all finite sequences of navigation operations", "why_tests_cant": "histories are unbounded", "anchors": ["src/doctree/tree_zipper.rs", "src/doctree/walkers.rs", "src/doctree/walkers.rs: walk_to_root"]}
{"id": "C15", "title": "Adding a node appends exactly one last child", "statement": "A successful push adds exactly one node, as the last child of the focused node, and alters nothing else; a push that is refused leaves the whole tree and the focus unchanged.", "quantifier": "all trees, positions and nodes", "why_tests_cant": "unbounded trees; both outcomes at every position", "anchors": ["src/doctree/tree_zipper.rs: push_data, push_data_and_focus", "src/doctree/mod.rs: push_data", "src/doctree/tree_node.rs: push_child"]}
{"id": "C16", "title": "Documents only contain permitted parent/child pairs", "statement": "In every document reachable from the empty one by the document-building operations, each node is of a kind its parent permits (list nodes contain only their items and empty lines, paragraphs only inline nodes, leaf nodes have no children...).", "quantifier": "all finite sequences of document-building operations", "why_tests_cant": "invariant over unbounded histories", "anchors": ["src/doctree/tree_node.rs: child_is_allowed, push_child", "src/doctree/tree_node_types.rs: node_categories"]}
{"id": "C17", "title": "Node identifiers are unique", "statement": "In every document reachable by document-building operations no two nodes share an identifier and every identifier is smaller than the document's node counter.", "quantifier": "all finite sequences of document-building operations", "why_tests_cant": "invariant over unbounded histories, including failing pushes and removals", "anchors": ["src/doctree/mod.rs: push_data, push_child, pop_child, append_children, node_count"]}
{"id": "C18", "title": "Walking to a node by identifier finds it", "statement": "Walking to an identifier ends focused on the node with this identifier iff the document contains one, otherwise at the root; the document itself is unchanged either way.", "quantifier": "all documents, starting positions and identifiers", "why_tests_cant": "search over unbounded trees", "anchors": ["src/doctree/walkers.rs: walk, walk_to_node_with_id"]}
{"id": "C19", "title": "Closing sections returns to the right ancestor", "statement": "Walking up to the parent section of level n ends at the nearest enclosing section whose level is at most n, or at the document root if there is none, and leaves the document unchanged.", "quantifier": "all trees, positions and levels", "why_tests_cant": "unbounded nesting", "anchors": ["src/doctree/tree_zipper.rs: walk_to_parent_section_level"]}
{"id": "C20", "title": "Section levels follow the order of first appearance of title styles", "statement": "For every sequence of title styles, a style keeps the level it got at first sight, a new style gets the next free level, and levels 1..k are in bijection with the styles seen so far.", "quantifier": "all finite sequences of title styles", "why_tests_cant": "unbounded histories", "anchors": ["src/doctree/section_data.rs: line_style_section_level"]}
{"id": "C21", "title": "Sections nest strictly", "statement": "In every parsed document a section nested in another has a strictly greater level than the section that contains it.", "quantifier": "all source documents", "why_tests_cant": "unbounded documents with any interleaving of title styles", "anchors": ["src/parser/state_machine/body.rs: text, line", "src/doctree/section_data.rs"]}
{"id": "C22", "title": "Auto-numbered footnotes get the least free number", "statement": "The number given to an auto-numbered footnote is the smallest positive integer not already used as a target label; therefore it never collides with a manually numbered one, in any order of manual and automatic footnotes.", "quantifier": "all sets of existing labels and all sequences of footnotes", "why_tests_cant": "unbounded sets of labels", "anchors": ["src/doctree/mod.rs: new_autonumber_footnote_label"]}
{"id": "C23", "title": "Symbolic footnote labels never repeat", "statement": "The n-th and m-th auto-symbol footnote get different labels whenever n and m differ, each label consisting of one symbol repeated.", "quantifier": "all pairs of naturals", "why_tests_cant": "unbounded counters; repetition starts only after ten footnotes", "anchors": ["src/doctree/mod.rs: new_symbolic_footnote_label", "src/common.rs: FOOTNOTE_SYMBOLS"]}
{"id": "C24", "title": "Auto-symbol footnote references pair with footnotes in order", "statement": "The k-th auto-symbol footnote reference of a document refers to the label of the k-th auto-symbol footnote, whatever the interleaving of references and footnotes.", "quantifier": "all interleavings of references and footnotes", "why_tests_cant": "schedules of two kinds of events", "anchors": ["src/doctree/hyperref_data.rs: increment_symbolic_footnote_ref_counter_by", "src/doctree/mod.rs: hyperref_actions"]}
{"id": "C25", "title": "Anonymous hyperlinks pair with anonymous targets in order", "statement": "The k-th anonymous reference of a document gets the label of the k-th anonymous target.", "quantifier": "all interleavings of anonymous references and targets, including targets first seen at the wrong indentation", "why_tests_cant": "histories with retried transitions", "anchors": ["src/doctree/mod.rs: next_anon_target_label, next_anon_reference_label", "src/parser/state_machine/body.rs: hyperlink_target"]}
{"id": "C26", "title": "Internal target labels are attached to the next real node", "statement": "Accumulated internal target labels are all attached, in order, to the first following node that is not an empty line or white space, are registered as targets of that node, and are never attached twice.", "quantifier": "all sequences of pushed labels and nodes", "why_tests_cant": "unbounded histories", "anchors": ["src/doctree/mod.rs: hyperref_actions, push_to_internal_target_stack"]}
{"id": "C27", "title": "Indirect targets reference the target they name", "statement": "Adding an indirect hyperlink target records a reference to the target it points to.", "quantifier": "all labels", "why_tests_cant": "quantifies over all label pairs", "anchors": ["src/doctree/mod.rs: hyperref_actions (IndirectHyperlinkTarget)"]}
{"id": "C28", "title": "Class names are given to the next node only", "statement": "Pending class names are moved to the next node added and the pending list is empty afterwards.", "quantifier": "all histories of class registrations and node additions", "why_tests_cant": "unbounded histories", "anchors": ["src/doctree/class_data.rs", "src/doctree/mod.rs: push_data"]}
{"id": "C29", "title": "Parsing terminates", "statement": "The parser's main loop stops after boundedly many iterations for every source and every behaviour of the transition functions that does not move the cursor backwards.", "quantifier": "all sources, all initial states and all transition behaviours", "why_tests_cant": "termination quantifies over every input; includes pathological inputs on which no transition advances", "anchors": ["src/parser/mod.rs: Parser::parse"]}
{"id": "C30", "title": "The parser never moves backwards and reports EOF only at the end", "statement": "During parsing the cursor never decreases, and a parse that reports end of input has a cursor at or past the last line.", "quantifier": "all sources and transition behaviours", "why_tests_cant": "invariant over unbounded runs", "anchors": ["src/parser/mod.rs: Parser::parse, jump_to_line"]}
{"id": "C31", "title": "The state stack mirrors the nesting of open nodes", "statement": "Whenever every transition pairs each pushed state with one newly focused node and each pop with leaving one node, the number of states on the stack and the depth of the focused node change in lock step throughout the run, including the no-match exits of the loop itself.", "quantifier": "all runs", "why_tests_cant": "invariant over unbounded runs", "anchors": ["src/parser/mod.rs: Parser::parse", "src/parser/types_and_aliases.rs: PushOrPop"]}
{"id": "C32", "title": "Inline parsing terminates and consumes the whole text", "statement": "Splitting a text into inline nodes always terminates, each step consumes at least one character, and the consumed pieces concatenate to the input.", "quantifier": "all strings", "why_tests_cant": "strings with any nesting of inline markup", "anchors": ["src/parser/mod.rs: inline_parse, match_inline_str", "src/parser/state_machine/inline.rs"]}
{"id": "C33", "title": "Plain text survives inline parsing", "statement": "Text without any markup characters becomes alternating word and white-space nodes whose texts concatenate to the text itself.", "quantifier": "all strings without markup characters", "why_tests_cant": "unbounded strings", "anchors": ["src/parser/state_machine/inline.rs: text, whitespace"]}
{"id": "C34", "title": "Inline parsing keeps the line count", "statement": "After inline parsing, the cursor has advanced by exactly the number of newline characters in the text, so a paragraph of n lines advances the parser by n lines.", "quantifier": "all strings", "why_tests_cant": "strings with any number of newlines inside any markup", "anchors": ["src/parser/mod.rs: inline_parse", "src/parser/state_machine/body.rs: parse_paragraph"]}
{"id": "C35", "title": "Quoted start strings are not markup", "statement": "A start string enclosed in matching quotation characters is recognised as quoted: every opener is recognised with (one of) its closers and ASCII quotes match themselves.", "quantifier": "all characters", "why_tests_cant": "domain is every pair of characters", "anchors": ["src/parser/state_machine/inline.rs: quotation_matches"]}
{"id": "C36", "title": "Directive arguments stop at the first blank, misindented or option line", "statement": "Scanning directive arguments returns the consecutive argument lines without their indentation, stops before the first blank line, option line or line with another indentation, and advances the cursor exactly past the lines returned (plus the marker line if nothing follows the marker).", "quantifier": "all sources, cursors and indents", "why_tests_cant": "unbounded line lists", "anchors": ["src/parser/directive_parsers.rs: scan_directive_arguments"]}
{"id": "C37", "title": "Directive options are read completely and the last duplicate wins", "statement": "Scanning directive options maps each option name to the value of its last occurrence in the option block, stops at the first blank or non-option line, never moves backwards, and returns nothing iff no option line is present.", "quantifier": "all sources and cursors", "why_tests_cant": "unbounded option lists with duplicates", "anchors": ["src/parser/directive_parsers.rs: scan_directive_options"]}
{"id": "C38", "title": "Math directive content splits into its paragraphs", "statement": "The content of a math directive is split at blank lines into non-empty blocks that contain all non-blank lines in order, and the generated reference names of the blocks are pairwise different.", "quantifier": "all contents and names", "why_tests_cant": "unbounded number of blocks", "anchors": ["src/parser/directive_parsers.rs: parse_math_block"]}
{"id": "C39", "title": "Questionnaire points are the sum of the points of its questions", "statement": "The point total that a questionnaire without explicit maximum reports is the sum of the points of its questions; an explicit maximum overrides it.", "quantifier": "all sequences of questions", "why_tests_cant": "unbounded sequences", "anchors": ["src/parser/directive_parsers.rs: parse_aplus_pick_one, parse_aplus_pick_any, parse_aplus_freetext", "src/doctree/larst_writer.rs: AplusQuestionnaire"]}
{"id": "C40", "title": "The writer emits every node once in document order", "statement": "The output for a tree is the opening string of the root, the outputs of its children from first to last and the closing string of the root; hence the output depends on the document only and not on where the focus was.", "quantifier": "all trees and focus positions", "why_tests_cant": "unbounded trees", "anchors": ["src/doctree/larst_writer.rs: write_to_larst"]}
{"id": "C41", "title": "LaTeX environments are balanced", "statement": "For every writable tree the sequence of \\begin{..} and \\end{..} commands issued by the writer is properly nested and balanced.", "quantifier": "all trees", "why_tests_cant": "unbounded nesting", "anchors": ["src/doctree/larst_writer.rs: larst_pre_order_string, larst_post_order_string"]}
{"id": "C42", "title": "Documents that parse can be written", "statement": "Every document produced by a successful parse is written without a panic.", "quantifier": "all documents", "why_tests_cant": "quantifies over every node kind the parser can create", "anchors": ["src/doctree/larst_writer.rs", "src/parser/state_machine/body.rs"]}
{"id": "C43", "title": "Section titles and labels are emitted for every section", "statement": "For a section of level l the writer emits chapter/section/subsection/subsubsection for l = 1/2/3/>=4, preceded by one anchor for each label attached to it, in order.", "quantifier": "all levels, titles and label lists", "why_tests_cant": "levels and label lists are unbounded", "anchors": ["src/doctree/larst_writer.rs: larst_pre_order_string(Section), anchor_string"]}
{"id": "C44", "title": "The document wrapper is written iff requested", "statement": "With --full-doc the output is wrapped in exactly one documentclass/begin{document} ... end{document} pair and without it the wrapper is absent; the inner text is the same.", "quantifier": "all documents", "why_tests_cant": "unbounded documents", "anchors": ["src/doctree/larst_writer.rs: Document"]}
{"id": "C45", "title": "The complete output reaches the stream", "statement": "For every output stream that accepts data, all bytes of the generated document reach the stream, in order, even if the stream accepts only part of a buffer per call.", "quantifier": "all documents and all stream schedules (numbers of bytes accepted per write call)", "why_tests_cant": "depends on the schedule of short writes", "anchors": ["src/doctree/larst_writer.rs: larst_pre_order_write, larst_post_order_write"]}
{"id": "C46", "title": "Figure captions", "statement": "The transform turns the paragraph directly following the image of a figure into its caption and leaves all other nodes, their order and identifiers unchanged.", "quantifier": "all trees", "why_tests_cant": "unbounded trees with nested figures", "anchors": ["src/doctree/restructuredtext_transforms.rs"]}
{"id": "C47", "title": "List tables keep their cells", "statement": "The transform turns a well-formed list table into rows and entries with the same contents in the same order, exactly the last entry of each row being marked as last.", "quantifier": "all list tables", "why_tests_cant": "unbounded numbers of rows and columns", "anchors": ["src/doctree/restructuredtext_transforms.rs"]}
{"id": "C48", "title": "Comments stay comments", "statement": "Every line written for a comment node starts with '%' or is empty, so comment text never leaks into the document.", "quantifier": "all comment texts", "why_tests_cant": "texts with any number and kind of line breaks", "anchors": ["src/doctree/larst_writer.rs: Comment"]}
{"id": "C49", "title": "Code content is written verbatim", "statement": "The text of a code block given with a code or code-block directive appears in the output.", "quantifier": "all code texts", "why_tests_cant": "all texts", "anchors": ["src/doctree/larst_writer.rs: Code, SphinxCodeBlock, LiteralBlock"]}
{"id": "C50", "title": "Paragraph documents parse to their paragraphs", "statement": "A document consisting of markup-free paragraphs separated by blank lines parses successfully into one paragraph node per paragraph, in order, whose text is the text of the paragraph.", "quantifier": "all such documents", "why_tests_cant": "unbounded numbers of paragraphs and lines", "anchors": ["src/parser/mod.rs: Parser::parse", "src/parser/state_machine/body.rs: text, parse_paragraph"]}
{"id": "C51", "title": "Recorded references and targets are never forgotten", "statement": "Once a node has been recorded as referring to a label it stays recorded under this label, after the earlier ones; once a label is registered as a target it stays one; each citation and footnote reference that is added is recorded under its normalised label.", "quantifier": "all documents and all histories of document-building operations", "why_tests_cant": "histories are unbounded and may reuse any label any number of times", "anchors": ["src/doctree/mod.rs: add_reference, add_target", "src/doctree/mod.rs: hyperref_actions"]}
{"id": "C52", "title": "Enumerated lists record the number of their items", "statement": "In every document that is produced by a successful parse, the number of items recorded in an enumerated list node is the number of its item children; this number decides which enumerator the next item must have.", "quantifier": "all source files", "why_tests_cant": "unbounded nesting and numbers of items", "anchors": ["src/parser/state_machine/body.rs: enumerator", "src/parser/state_machine/enumerated_list.rs: enumerator"]}
{"id": "C53", "title": "Every parser state belongs to an open node", "statement": "Whenever a construct ends and its parser state is left, the tree focus leaves the node that was opened for this construct, so that text following a construct is attached to the node that was focused before the construct.", "quantifier": "all source files", "why_tests_cant": "depends on the whole history of opened and closed constructs", "anchors": ["src/parser/state_machine/body.rs: parse_paragraph", "src/parser/state_machine/literal_block.rs", "src/parser/mod.rs: Parser::parse"]}
{"id": "C54", "title": "The parser ends on every document", "statement": "For every source text the parser returns after finitely many rounds; the number of rounds and the depth of nested parsers are bounded by a function of the number of characters and lines of the text.", "quantifier": "all source texts", "why_tests_cant": "non-termination cannot be observed by running finitely many examples", "anchors": ["src/parser/mod.rs: Parser::parse, parse_first_node_block", "src/parser/state_machine"]}
{"id": "C55", "title": "Only known crashes", "statement": "Whenever the program panics while it parses, transforms or writes a document, it does so at one of eleven known places, each of which some document reaches; no other unwrap, index, subtraction, unreachable! or panic! of the modelled code is ever reached.", "quantifier": "all source texts", "why_tests_cant": "absence of panics quantifies over all inputs and parser states", "anchors": ["src/parser", "src/doctree/restructuredtext_transforms.rs", "src/doctree/larst_writer.rs"]}
{"id": "C56", "title": "Documents of paragraphs, lists, directives and sections keep their structure", "statement": "A document made of paragraphs with inline markup, lists with bullets, numbers and fields, definition lists, block quotes, literal blocks, footnotes and citations, comments, transitions, list tables, directives with and without blocks in them (up to eight lists, items, quotes and directives nested in each other) and sections with underlined or overlined titles and hyperlink targets before them parses successfully; in its tree, blocks are nested as they are indented, every section has the level of its title style in the order of first appearance and contains exactly what stands between its title and the next title of the same or a smaller level; the output has everything in the order of the source, every title behind its labels.", "quantifier": "all such documents, of any length and with any number of items and sections", "why_tests_cant": "unbounded numbers of items, sections and interleavings of nesting; the parser closes open constructs one round at a time", "anchors": ["src/parser/mod.rs: Parser::parse", "src/parser/state_machine/body.rs: text, bullet, line", "src/parser/state_machine/bullet_list.rs", "src/doctree/section_data.rs", "src/doctree/larst_writer.rs"]}
{"id": "C57", "title": "Inline markup is recognised exactly", "statement": "A text made of words (with colons behind them and colons and underscores in them, if no scheme of an address stands before the colon), white space, emphasised and strongly emphasised text, inline literals, interpreted text with a known or unknown role, references by one or several words, references to an address, references to numbered footnotes and citations, plain addresses with a path and e-mail addresses, in which markup starts the text or follows white space or a single opening bracket, quotation mark, hyphen or slash and is followed by white space, punctuation or the end, is taken apart into exactly these pieces: each becomes the node it stands for, in the order of the source, and nothing is lost or added, except for the character that follows a reference to an address.", "quantifier": "all such texts, with any number of pieces", "why_tests_cant": "the pattern list is tried in order on every suffix of the text, with an unbounded choice of contents and neighbours", "anchors": ["src/parser/automata.rs", "src/parser/state_machine/inline.rs", "src/parser/mod.rs: inline_parse"]}
{"id": "C58", "title": "Formulas are converted once", "statement": "The characters of a formula given by the math role are converted to LaTeX commands exactly once, so that special characters stay escaped in the output.", "quantifier": "all formulas", "why_tests_cant": "the conversion is applied at two places, and whether it may be repeated depends on the whole table", "anchors": ["src/utf8_to_latex.rs: unicode_math_to_latex", "src/parser/state_machine/inline.rs: interpreted_text", "src/doctree/larst_writer.rs: pre_string"]}
{"id": "C59", "title": "Line endings do not matter and only UTF-8 is accepted", "statement": "A source in UTF-8 is read into the same lines whether its lines end in LF or CR LF, in any mixture, and whether or not the last line is ended, so that the program does the same; a source that is not UTF-8 makes the program return an error without any effect.", "quantifier": "all byte sequences of standard input and of source files, all arguments, all answers of the operating system", "why_tests_cant": "lines, endings and encodings form an infinite space, and a byte that looks like a line end could be part of a character", "anchors": ["src/lib.rs: run", "src/common.rs: read_path_lines"]}
{"id": "C60", "title": "The output goes to the chosen place, completely", "statement": "Without --to-file in force no file is touched; with it standard output receives nothing and the only files touched are the source's stem with extension tex beside the source and, if --aplus-cls is given, aplus.cls beside the source. A run that ends normally on streams that accept what they are given leaves exactly the generated text there. With --to-file and no source file the program stops without writing.", "quantifier": "all argument lists, all file systems, all sources", "why_tests_cant": "the place depends on arguments, on the existence of files and on file names with any number of dots", "anchors": ["src/lib.rs: run", "src/doctree/mod.rs: DocTree::new", "src/doctree/larst_writer.rs: write_to_larst", "src/rustla_options.rs"]}
{"id": "C61", "title": "A failed run leaves earlier output alone", "statement": "If the program returns an error or panics, output files of earlier runs keep their contents.", "quantifier": "all arguments, sources, file systems and points of failure", "why_tests_cant": "every point of failure would have to be provoked", "anchors": ["src/lib.rs: run", "src/doctree/larst_writer.rs: write_to_larst"]}
{"id": "C62", "title": "The source file is never modified", "statement": "The program does not write to the file that it reads.", "quantifier": "all arguments and file systems", "why_tests_cant": "depends on the name of the source", "anchors": ["src/doctree/mod.rs: DocTree::new", "src/doctree/larst_writer.rs: write_to_larst"]}
{"id": "C63", "title": "Comments and directives become their nodes", "statement": "A comment, an image, code, one or several formulas and an active element input or output become exactly the nodes they stand for, with the argument and options as they are given in the source; in the output the text of a comment is kept line by line behind percent signs, code is kept line by line, and every option that has a place in the output is written as it was given.", "quantifier": "all contents, arguments and option lists that are well formed", "why_tests_cant": "unbounded texts and combinations of options", "anchors": ["src/parser/directive_parsers.rs", "src/parser/automata.rs: directive patterns", "src/parser/state_machine/body.rs: directive, comment", "src/doctree/larst_writer.rs"]}
{"id": "C64", "title": "Directives contain the blocks indented below them", "statement": "An admonition, a directive `only`, a point of interest, a submitted exercise, a figure or a directive that the parser does not know becomes one node with the argument and the options given in the source, contains exactly the blocks that are indented below it (a figure behind its image), whatever they are and however they are nested (up to the limit of C56), and its output is its environment around the output of its blocks, where the first paragraph of a figure becomes its caption.", "quantifier": "all such directives and all well-formed sequences of blocks", "why_tests_cant": "unbounded nesting and interleaving of blocks; some directives start a nested parser", "anchors": ["src/parser/directive_parsers.rs: parse_standard_admonition, parse_generic_admonition, parse_sphinx_only, parse_unknown_directive", "src/parser/state_machine/body.rs: directive", "src/doctree/larst_writer.rs"]}
{"id": "C65", "title": "The argument of an exercise gives key, difficulty and points", "statement": "Of the argument of a questionnaire or submitted exercise, the letters and digits in front are the key; behind some spaces, one upper case letter is the difficulty and the digits directly behind it are the maximum of points; each part is as long as possible, may be missing, and everything behind them is ignored.", "quantifier": "all argument texts", "why_tests_cant": "the pattern consists of optional parts only, so that every text is matched somehow", "anchors": ["src/parser/directive_parsers.rs: aplus_key_difficulty_and_max_points"]}
{"id": "C66", "title": "Questionnaires become questions with their choices, hints and points", "statement": "A questionnaire becomes one node whose children are its paragraphs and questions in order; a question with choices contains its assignment, each choice with its label, answer and marks (right, neutral, selected from the start), and its hints with their labels and whether they are shown when the choice was missed; a question that is answered in words carries its points, its method of comparison and its answer; options are taken from the source; the points of the questions are added up in the questionnaire. The output is one environment per question in the same order, and the points written for the questionnaire are those of its argument or else the sum.", "quantifier": "all questionnaires made of any number of well-formed entries, with any number of choices and hints each", "why_tests_cant": "unbounded numbers of questions, choices and hints, and every combination of marks and options", "anchors": ["src/parser/directive_parsers.rs: parse_aplus_questionnaire, parse_aplus_pick_one, parse_aplus_pick_any, parse_aplus_freetext", "src/parser/state_machine/aplus_questionnaire.rs: parse_aplus_questionnaire_directive, parse_aplus_questionnaire_text", "src/doctree/larst_writer.rs"]}
{"id": "C67", "title": "Literal blocks keep their lines", "statement": "A paragraph that ends with two colons and is followed by blank lines announces a literal block: the paragraph keeps one of the colons, or none if there is white space in front of them, and all following lines that are indented more than the paragraph, or that start with the same quoting character up to a blank line, become one literal block whatever is written on them. Its text is those lines in order, without the indentation of the first one, or without the quoting character and the white space behind it; in the output the escaped text stands in one codeblock environment. A line between blank lines that consists of two colons announces a literal block in the same way, and nothing is left of it. (Outside of blocks that are read by a nested parser.)", "quantifier": "all paragraphs with markup that end with two colons, all lines of indented and quoted literal blocks, all indentations", "why_tests_cant": "the lines of a literal block are arbitrary text that would mean something else outside of it", "anchors": ["src/parser/state_machine/body.rs: parse_paragraph", "src/parser/state_machine/literal_block.rs: literal_block, parse_indented_literal, parse_quoted_literal", "src/parser/mod.rs: read_indented_block, read_text_block", "src/doctree/larst_writer.rs"]}
{"id": "C68", "title": "Indented blocks become block quotes with their attribution", "statement": "Blocks behind a paragraph (or at the start of a list item or section) that are indented further than it become the children of exactly one block quote, whatever they are, however far they are indented and however deep block quotes are nested (up to the limit of C56); a last line that starts with two hyphens or a dash, with the lines directly below it, becomes the attribution, its lines joined by single spaces, and ends the block quote. In the output they stand in one quotation environment, the attribution behind two hyphens at its end. (Outside of blocks that are read by a nested parser, and not for three hyphens.)", "quantifier": "all sequences of blocks, indentations and attributions", "why_tests_cant": "unbounded nesting; the end of a block quote is found by comparing indentations over any number of lines", "anchors": ["src/parser/state_machine/block_quote.rs: attribution", "src/parser/state_machine/body.rs: parse_paragraph and the other transitions", "src/doctree/larst_writer.rs"]}
{"id": "C69", "title": "Numbered items become one list", "statement": "Items with consecutive arabic numbers and the same delimiters (full stop, right parenthesis, two parentheses), each of which has several lines or is separated from the next one by a blank line, become the items of exactly one numbered list, which records the first number and the number of items; every item records its number and contains exactly its first paragraph and the blocks that are aligned with its text, whatever they are and however they are nested (up to the limit of C56); a number that does not follow the one before it, or other delimiters, start a new list. The output is one enumerate environment with one item each. (Without directives that contain blocks in the items.)", "quantifier": "all numbers, delimiters, numbers of items and contents of items", "why_tests_cant": "every item is found by looking at the items before it, and is read by a parser of its own", "anchors": ["src/parser/state_machine/body.rs: enumerator", "src/parser/state_machine/enumerated_list.rs: enumerator", "src/parser/state_machine/mod.rs: is_enumerated_list_item", "src/parser/mod.rs: parse_first_node_block", "src/doctree/larst_writer.rs"]}
{"id": "C70", "title": "Fields become one field list", "statement": "Consecutive fields (a name between colons with text behind it) become the items of exactly one field list, in order and with their names as they are given in the source; every item contains exactly the paragraph behind the name and the blocks that are indented like its second line (or aligned with its text if the paragraph has one line), whatever they are and however they are nested (up to the limit of C56). The output is one itemize environment with the names in bold.", "quantifier": "all names without colons, indentations, numbers of fields and contents", "why_tests_cant": "unbounded numbers of fields and nesting of their contents; the indentation depends on the second line", "anchors": ["src/parser/state_machine/body.rs: field_marker", "src/parser/state_machine/field_list.rs: field_marker", "src/parser/mod.rs: parse_first_node_block", "src/doctree/larst_writer.rs"]}
{"id": "C71", "title": "Definition lists", "statement": "Lines of text that are each directly followed by lines with a larger indentation become the terms of exactly one definition list, in order; the parts of the line behind colons between spaces become the classifiers of the term, and the term contains exactly the blocks that are indented below it, each term with an indentation of its own, whatever the blocks are and however they are nested (up to the limit of C56). The output is one itemize environment with the terms in bold and the classifiers behind them. (A definition list is followed by the end of the document or by a paragraph that has a line without any characters, not even spaces, behind it.)", "quantifier": "all terms, classifiers, indentations and contents of definitions", "why_tests_cant": "unbounded numbers of terms and nesting of their contents; the end of a list is found by looking one line ahead", "anchors": ["src/parser/state_machine/body.rs: text", "src/parser/state_machine/definition_list.rs: text", "src/doctree/larst_writer.rs"]}
{"id": "C72", "title": "Footnotes with numbers and citations", "statement": "A footnote with a number or a citation becomes one node with its label, in order, and is named by its label (in lower case); it contains exactly the paragraph behind the marker and the blocks that are indented like the second line of the paragraph (or like the first of the other blocks if the paragraph has one line), whatever they are and however they are nested (up to the limit of C56); lines that are not indented end it, even without a blank line. The output is a footnote or a bibliography entry with the label around the output of its contents.", "quantifier": "all labels, indentations, numbers of notes and contents", "why_tests_cant": "unbounded numbers of notes and nesting of their contents; the indentation depends on the next line that is not blank", "anchors": ["src/parser/state_machine/body.rs: footnote, citation", "src/parser/mod.rs: parse_first_node_block", "src/parser/mod.rs: indent_on_subsequent_lines, read_indented_block", "src/doctree/larst_writer.rs"]}
{"id": "C73", "title": "Transitions", "statement": "A line of at least four equal punctuation characters (other than colons) between blank lines, behind at least one blank line or block, becomes a transition: it ends all lists, quotes, directives, definitions and notes that are open before it, belongs to the section it stands in (or to the document), and is followed by exactly the blocks behind it, in order; the output is a horizontal line between the outputs of the blocks before it and behind it. (Lists, quotes and directives are nested up to the limit of C56.)", "quantifier": "all sequences of blocks and transitions, with any characters, lengths and numbers of blank lines", "why_tests_cant": "unbounded numbers of blocks and transitions, and any nodes open before each of them", "anchors": ["src/parser/state_machine/body.rs: line", "src/parser/mod.rs: parse", "src/doctree/tree_node.rs: child_is_allowed", "src/doctree/larst_writer.rs"]}
{"id": "C74", "title": "Hyperlink targets before titles, formulas and figures", "statement": "Hyperlink targets without content before a title, with or without blank lines behind them, become no nodes of their own: they end all lists, quotes, directives, definitions and notes that are open before them, and the section gets their names as labels, in order and with normalised case and white space, before the label that stands for its title; the output of the section starts with one anchor for each of these labels, in order. Targets before a formula or a figure become its labels in the same way, and the output of the formula starts, and that of the figure ends, with one anchor for each of them behind the one for its own name. The text written for any other node does not depend on its labels. (Names of letters, digits, spaces and single separators, with at least two characters behind the last separator.)", "quantifier": "all names of targets, numbers of targets and of blank lines between them, blocks before them, and sections, formulas or figures behind them", "why_tests_cant": "unbounded numbers of targets, and any nodes open before them; the labels are kept aside until the next node is made", "anchors": ["src/parser/state_machine/body.rs: hyperlink_target", "src/doctree/mod.rs: push_to_internal_target_stack", "src/doctree/hyperref_data.rs", "src/doctree/larst_writer.rs: anchor_string"]}
{"id": "C75", "title": "Items counted by letters, Roman numerals and number signs become one list", "statement": "Items that are counted in one system (Arabic numbers, letters or Roman numerals of either case) with the same delimiters, each of them by the number that is next or by a number sign, and each of which has several lines or is separated from the next one by a blank line, or has a number sign like the next one, become the items of exactly one list, which records the system, the first number and the number of items; every item records its number, also if a number sign stands for it, and contains exactly its first paragraph and the blocks that are aligned with its text; a list that starts with a number sign has Arabic numbers from one. The output is one enumerate environment with one item each. (Letters that are Roman numerals as well are replaced by number signs; no directives that contain blocks in the items; Roman numerals up to 4999.)", "quantifier": "all systems, numbers, delimiters, number signs in place of any of the items, numbers of items and contents of items", "why_tests_cant": "every item is found by looking at the items before it, number signs get their meaning from all of them, and an item is read by a parser of its own", "anchors": ["src/parser/converters.rs: enum_captures_to_int_kind_and_delims, alpha_to_usize, upper_roman_to_usize, lower_roman_to_usize", "src/parser/state_machine/body.rs: enumerator", "src/parser/state_machine/enumerated_list.rs: enumerator", "src/parser/regex_patterns.rs: ENUMERATOR_PATTERN"]}
{"id": "C76", "title": "List tables become rows of cells", "statement": "A list table (a directive with a bullet list of rows, each of them a bullet list of cells) becomes one node that records its title, its width, the numbers of header rows and stub columns, its alignment and the widths of its columns as they are given in the source; if no widths are given, then the columns, as many as the longest row has cells, have equal shares of the width of the text. It contains exactly its rows and cells, in order and with the text of each cell. The output is one tabular environment with one column for each width and, for each row, the texts of its cells with separators between them. (Cells are paragraphs.)", "quantifier": "all titles, options, numbers of rows and cells, contents of cells, bullets and blank lines between rows", "why_tests_cant": "unbounded numbers of rows and cells, each of them read by a parser of its own whose open nodes have to be closed before the columns are counted", "anchors": ["src/parser/directive_parsers.rs: parse_list_table", "src/doctree/restructuredtext_transforms.rs: perform_restructuredtext_transforms", "src/doctree/larst_writer.rs"]}
{"id": "C77", "title": "From the bytes of the source to the bytes of the output", "statement": "For every document of C56, stored as UTF-8 with any mixture of line endings, read from standard input or from the file named by the last argument: the program ends normally. Unless the last output flag is --to-file it touches no file and appends to standard output exactly the encoding of the LaTeX text that C56 gives; with --to-file the file with the stem of the source and the extension tex beside the source then contains exactly this encoding, whatever it contained before, aplus.cls beside it contains the class if --aplus-cls is given, and no other file is touched. With --full-doc the text stands between the beginning and the end of a LaTeX document. (Streams that accept every write as a whole, files that can be written, and UTF-8 names.)", "quantifier": "all documents of C56, line endings, arguments, names of files and earlier contents of files", "why_tests_cant": "the whole program on unboundedly many documents and file systems", "anchors": ["src/lib.rs: run", "src/doctree/larst_writer.rs: write_to_larst", "src/doctree/mod.rs: new"]}
{"id": "C78", "title": "Admonitions whose text starts behind the marker", "statement": "An admonition with a fixed title (note, warning, hint, ...) whose first paragraph starts behind the marker becomes exactly one node; it contains that paragraph, whose other lines are indented by three columns, and exactly the blocks that are indented below it, and what is not indented follows the node. The output is an environment named like the directive around the text of the paragraph and the blocks. This holds if the paragraph has a second line or other blocks follow it in the admonition, there are no options, and an empty line is behind the paragraph.", "quantifier": "all names, texts, numbers of lines and contents of admonitions, and all blocks behind them", "why_tests_cant": "unbounded numbers of lines and nested contents; the text behind the marker and the blocks are read by one parser of their own", "anchors": ["src/parser/directive_parsers.rs: parse_standard_admonition, scan_directive_arguments", "src/parser/mod.rs: read_indented_block", "src/parser/state_machine/body.rs: directive", "src/doctree/larst_writer.rs"]}
{"id": "C79", "title": "Option values are read exactly", "statement": "A length option is read if and only if it is an unsigned decimal number directly followed by one of the units em, ex, mm, cm, in, px, pt, pc, a percentage if and only if it is such a number followed by a percent sign (white space between them is allowed), a whole number if and only if it consists of digits after an optional plus sign and fits into the given number of bits, a column width of digits, points and plus signs if and only if it is an unsigned decimal number after an optional plus sign, and an alignment if and only if it is one of the names of alignments; the value is the one that is written. White space around lengths, percentages and alignments does not matter; everything else is not read as a value.", "quantifier": "all texts", "why_tests_cant": "unbounded texts; both directions: what is accepted and what is refused", "anchors": ["src/parser/converters.rs: str_to_length, str_to_percentage, str_to_html_alignment, str_to_horizontal_alignment", "src/parser/directive_parsers.rs: parse_aplus_pick_one, parse_list_table"]}
{"id": "C80", "title": "Code is in the output", "statement": "The lines of code given with one of the directives code, code-block and sourcecode are in the output, unchanged and in order, between the beginning and the end of a codeblock environment, and what is written for the blocks behind them does not depend on them. (False of the directive code: its lines are kept in the document, but the environment is written empty.)", "quantifier": "all names, arguments, options and lines of code, and all blocks behind them", "why_tests_cant": "unbounded numbers of lines of code and blocks behind it; every line has to be kept", "anchors": ["src/parser/directive_parsers.rs: parse_code, parse_sphinx_code_block", "src/parser/mod.rs: read_indented_block", "src/doctree/larst_writer.rs"]}
{"id": "C81", "title": "The content of the directive class is written once", "statement": "The directive class becomes one node with the names of the classes that contains exactly the blocks indented below it, in order, and the output for it is the output for these blocks; what follows it is not part of it. (False of the program: the blocks are in the node, and in the output, twice.)", "quantifier": "all names of classes, all blocks in the directive and all blocks behind it", "why_tests_cant": "unbounded and arbitrarily nested contents; the blocks are read by a parser of their own and must be passed over by the outer one", "anchors": ["src/parser/directive_parsers.rs: parse_class", "src/parser/mod.rs: read_indented_block", "src/parser/state_machine/body.rs: directive", "src/doctree/larst_writer.rs"]}
{"id": "C82", "title": "Numbered lines and lists", "statement": "A line that starts with a numeral such as 2., b) or (iv) and whose next line is ordinary text with the same indentation, or starts with a numeral that does not fit, is text: the lines up to the next blank line are one paragraph, and the output is their text with the numerals in it. Lines with consecutive numerals of the same kind and form (no number signs, for which see C75), with no blank lines between them, are the items of one list. (The second half is false of the program: such lines become one paragraph, too.)", "quantifier": "all kinds of numerals, delimiters, texts and numbers of lines, and all plain paragraphs around them", "why_tests_cant": "unbounded numbers, texts and numbers of items; what a line means depends on the line below it", "anchors": ["src/parser/state_machine/mod.rs: is_enumerated_list_item", "src/parser/state_machine/body.rs: enumerator, text", "src/parser/converters.rs: enum_captures_to_int_kind_and_delims"]}
{"id": "C83", "title": "Columns in points of interest", "statement": "A point of interest becomes one node that contains exactly what is indented below its directive, in order; each line ::newcol between its paragraphs, comments and directives becomes a column break at its place, whether or not a blank line follows it, and what follows the point of interest is not part of it. The output is one poi environment around the output for the contents, with \\newcol at the place of each such line, and nothing of the contents is lost. (False of the program for a line ::newcol directly below a paragraph and in lists and admonitions in the point of interest, where it is text, and for text behind ::newcol in its line, which is lost.)", "quantifier": "all options and titles of points of interest, all sequences of paragraphs, comments, directives without blocks and column breaks in them, and all blocks behind them", "why_tests_cant": "unbounded numbers of column breaks and contents; the contents are read by a parser of their own, in a state of its own", "anchors": ["src/parser/state_machine/aplus.rs: aplus_col_break", "src/parser/directive_parsers.rs: parse_aplus_point_of_interest", "src/parser/state_machine/transitions.rs", "src/doctree/larst_writer.rs"]}
{"id": "C84", "title": "A directive without content takes nothing", "statement": "A figure, an admonition with a title, a point of interest or a directive that the program does not know, without options, below which nothing is indented, becomes one node without content (a figure has its image), and the blocks behind it at the same indentation follow that node; the output has an environment with nothing else in it at the place of the directive. (True at the end of a document; otherwise false of the program: the node contains everything that follows the directive at its indentation, and its environment in the output is around all of it; the paragraph behind a figure becomes its caption.)", "quantifier": "all names and arguments of directives, all blocks before and behind the directive", "why_tests_cant": "unbounded blocks behind the directive, whatever they are and however they are nested; the indentation of the content is guessed from a line that need not belong to it", "anchors": ["src/parser/state_machine/body.rs: directive", "src/parser/directive_parsers.rs: parse_unknown_directive", "src/parser/mod.rs: indent_on_subsequent_lines"]}
{"id": "C85", "title": "An empty comment takes nothing", "statement": "Two dots alone on a line with a blank line below them separate what is before them from what is behind them: the blocks before and behind keep their structure (two lists of the same kind stay two lists), the comment has no text, and nothing is at its place in the output, even if the blocks behind it are indented. (Proved for blocks that are not indented; false of the program for an indented block, whose lines are in the comment.)", "quantifier": "all blocks before and behind the dots, any blank lines, all indented blocks", "why_tests_cant": "unbounded blocks on both sides and lines in the indented block", "anchors": ["src/parser/state_machine/body.rs: comment", "src/parser/mod.rs: read_indented_block", "src/doctree/larst_writer.rs: Comment"]}
{"id": "C86", "title": "Text below two dots is hidden", "statement": "Lines that are indented below two dots are a comment with exactly these lines, whatever they contain: no directive, list or target in them has any effect, the blocks before and behind keep their structure, and in the output each of the lines is behind a percent sign. (Proved if no line is less indented than the first one; false of the program otherwise: less indented lines end the comment and are visible as a block quote.)", "quantifier": "all texts of any lines whose first and last lines are not blank, at all indentations, all blocks before and behind them", "why_tests_cant": "unbounded lines with arbitrary contents, unbounded blocks on both sides", "anchors": ["src/parser/state_machine/body.rs: comment", "src/parser/mod.rs: read_indented_block", "src/doctree/larst_writer.rs: Comment"]}
{"id": "C87", "title": "A target with a relative address takes nothing else", "statement": "A hyperlink target whose address is a word (a relative address such as docs/index, on the line below the target) has no effect on the other blocks of the document: those before and behind it are in the document and in the output. (False of the program: the parse fails at the target; the blocks before it are written, everything behind it is lost, and nothing is reported in the output.)", "quantifier": "all names of targets, all words without markup as addresses, all blocks before the target, all lines whatever behind it", "why_tests_cant": "unbounded blocks before the target, arbitrary lines behind it", "anchors": ["src/parser/state_machine/body.rs: hyperlink_target", "src/lib.rs: run", "src/parser/mod.rs: parse, inline_parse"]}
