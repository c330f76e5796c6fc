{
 "claims": [
  {
   "property": "C01",
   "status": "proved",
   "theorems": [
    "Rustla.C01_options",
    "Rustla.C01_unknown_arguments_ignored"
   ],
   "note": ""
  },
  {
   "property": "C02",
   "status": "proved",
   "theorems": [
    "Rustla.C02_no_live_special"
   ],
   "note": ""
  },
  {
   "property": "C03",
   "status": "partial",
   "theorems": [
    "Rustla.C03_faithful_partial",
    "Rustla.C03_injective_partial",
    "Rustla.C03_not_injective",
    "Rustla.C03_underscore_adds_space",
    "Rustla.C03_protected_letter_merges"
   ],
   "note": "Faithfulness and injectivity hold away from the situations named in the hypotheses; the negative theorems show the full statement is false of the code."
  },
  {
   "property": "C04",
   "status": "proved",
   "theorems": [
    "Rustla.C04_math_homomorphism",
    "Rustla.C04_math_unmapped",
    "Rustla.C04_math_mapped",
    "Rustla.C04_wrong_entries",
    "Rustla.C04_math_command_merges"
   ],
   "note": "C04_wrong_entries and C04_math_command_merges are findings: wrong table entries and a command that merges with a following letter."
  },
  {
   "property": "C05",
   "status": "proved",
   "theorems": [
    "Rustla.C05_idempotent",
    "Rustla.C05_same_name",
    "Rustla.C05_canonical",
    "Rustla.caseMap_ascii"
   ],
   "note": "For any case mapping of characters meeting CaseMap."
  },
  {
   "property": "C06",
   "status": "proved",
   "theorems": [
    "Rustla.C06_strip_exact",
    "Rustla.C06_strip_sound",
    "Rustla.C06_strip_refuse",
    "Rustla.C06_short_blank_line_panics"
   ],
   "note": ""
  },
  {
   "property": "C13",
   "status": "proved",
   "theorems": [
    "Rustla.C13_child_then_parent",
    "Rustla.C13_child",
    "Rustla.C13_parent"
   ],
   "note": ""
  },
  {
   "property": "C14",
   "status": "proved",
   "theorems": [
    "Rustla.C14_navigation_preserves_document"
   ],
   "note": "A navigation sequence that panics (e.g. asking for the last child of a childless node) is out of scope of the statement."
  },
  {
   "property": "C15",
   "status": "proved",
   "theorems": [
    "Rustla.C15_push_appends",
    "Rustla.C15_push_and_focus",
    "Rustla.C15_refused_push_changes_nothing",
    "Rustla.C15_when_refused"
   ],
   "note": ""
  },
  {
   "property": "C18",
   "status": "proved",
   "theorems": [
    "Rustla.C18_walk_by_id",
    "Rustla.C18_unknown_id_panics"
   ],
   "note": ""
  },
  {
   "property": "C19",
   "status": "proved",
   "theorems": [
    "Rustla.C19_walk_to_section"
   ],
   "note": ""
  },
  {
   "property": "C16",
   "status": "proved",
   "theorems": [
    "Rustla.C16_permitted_pairs",
    "Rustla.C16_readable",
    "Rustla.C16_leaves",
    "Rustla.C16_parsed_pairs"
   ],
   "note": "For every document reachable by a history of document-building operations (Spec/History.lean)."
  },
  {
   "property": "C17",
   "status": "proved",
   "theorems": [
    "Rustla.C17_unique_ids",
    "Rustla.C17_parsed_ids"
   ],
   "note": ""
  },
  {
   "property": "C20",
   "status": "proved",
   "theorems": [
    "Rustla.C20_section_levels",
    "Rustla.C20_bijection"
   ],
   "note": "Histories in which section nodes are made by new_section_data, as in the parser."
  },
  {
   "property": "C22",
   "status": "partial",
   "theorems": [
    "Rustla.C22_least_free_partial",
    "Rustla.C22_footnote_node_partial",
    "Rustla.C22_manual_after_auto_collides",
    "Rustla.C22_name_lost"
   ],
   "note": "Least free number: proved for every document. The claim 'in any order' is false of the code: a manual footnote after an automatic one can collide (C22_manual_after_auto_collides)."
  },
  {
   "property": "C23",
   "status": "proved",
   "theorems": [
    "Rustla.C23_symbolic_labels"
   ],
   "note": ""
  },
  {
   "property": "C24",
   "status": "partial",
   "theorems": [
    "Rustla.C24_labels",
    "Rustla.C24_alternating_partial",
    "Rustla.C24_violated"
   ],
   "note": "Violated by the code except when each footnote directly follows its reference; C24_labels is the exact behaviour."
  },
  {
   "property": "C25",
   "status": "partial",
   "theorems": [
    "Rustla.C25_anonymous_pairing_partial",
    "Rustla.C25_violated"
   ],
   "note": "Proved for the label functions of the document; C25_violated: the parser requests a label twice for a target first seen at the wrong indentation, so the claim is false of the program."
  },
  {
   "property": "C26",
   "status": "partial",
   "theorems": [
    "Rustla.C26_labels_accumulate",
    "Rustla.C26_blank_keeps_pending",
    "Rustla.C26_labels_attach_partial",
    "Rustla.C26_citation_forgets_targets",
    "Rustla.C26_refused_push_loses_labels"
   ],
   "note": "Missing: citations and footnote/citation references, for which the code violates the claim."
  },
  {
   "property": "C27",
   "status": "partial",
   "theorems": [
    "Rustla.C27_violated"
   ],
   "note": "The code violates the property for every indirect target whose own name differs from the name it points to."
  },
  {
   "property": "C28",
   "status": "partial",
   "theorems": [
    "Rustla.C28_classes_to_next_node",
    "Rustla.C28_classes_to_next_focus",
    "Rustla.C28_push_child_ignores_classes"
   ],
   "note": "push_child does not hand over classes (violation)."
  },
  {
   "property": "C07",
   "status": "proved",
   "theorems": [
    "Rustla.C07_text_block",
    "Rustla.C07_paragraph",
    "Rustla.C07_behind_the_end"
   ],
   "note": ""
  },
  {
   "property": "C08",
   "status": "proved",
   "theorems": [
    "Rustla.C08_indented_block",
    "Rustla.C08_when_it_panics"
   ],
   "note": ""
  },
  {
   "property": "C09",
   "status": "proved",
   "theorems": [
    "Rustla.C09_skip_empty",
    "Rustla.C09_skip_to_next_block"
   ],
   "note": ""
  },
  {
   "property": "C10",
   "status": "proved",
   "theorems": [
    "Rustla.C10_alpha",
    "Rustla.C10_injective"
   ],
   "note": ""
  },
  {
   "property": "C11",
   "status": "partial",
   "theorems": [
    "Rustla.C11_upper",
    "Rustla.C11_case",
    "Rustla.C11_lower",
    "Rustla.C11_rejects_partial",
    "Rustla.C11_accepts_malformed"
   ],
   "note": "All canonical numerals up to 4999 are read correctly; the rejection half is false of the code for malformed sequences of Roman digits (C11_accepts_malformed)."
  },
  {
   "property": "C12",
   "status": "partial",
   "theorems": [
    "Rustla.C12_lookahead_partial",
    "Rustla.C12_violated",
    "Rustla.C12_separated_partial"
   ],
   "note": "Violated by the code: the look-ahead adds one to the number of the next line and then compares with the successor, so directly consecutive items need equal numbers. Proved for Arabic enumerators; items followed by a blank, differently indented or no line are recognised."
  },
  {
   "property": "C32",
   "status": "proved",
   "theorems": [
    "Rustla.C32_step",
    "Rustla.C32_terminates",
    "Rustla.C32_consumes",
    "Rustla.C32_pep_panics"
   ],
   "note": "Termination, progress and consumption hold for every text; one input class (a PEP role with more than four characters) stops the program with a panic instead of nodes (C32_pep_panics)."
  },
  {
   "property": "C33",
   "status": "proved",
   "theorems": [
    "Rustla.C33_plain",
    "Rustla.C33_runs",
    "Rustla.C33_alternate",
    "Rustla.C33_text",
    "Rustla.C33_text_verbatim"
   ],
   "note": "Markup characters: * ` _ [ | : @ and, for the statement about the concatenated text, the backslash."
  },
  {
   "property": "C34",
   "status": "proved",
   "theorems": [
    "Rustla.C34_newlines",
    "Rustla.C34_paragraph"
   ],
   "note": ""
  },
  {
   "property": "C35",
   "status": "proved",
   "theorems": [
    "Rustla.C35_iff",
    "Rustla.C35_every_opener",
    "Rustla.C35_opener",
    "Rustla.C35_ascii",
    "Rustla.C35_needs_lookbehind",
    "Rustla.C35_text",
    "Rustla.C35_lost_ranges",
    "Rustla.C35_swallows_markup"
   ],
   "note": "The same-character delimiters inside the ranges of the specification are lost (C35_lost_ranges)."
  },
  {
   "property": "C29",
   "status": "proved",
   "theorems": [
    "Rustla.C29_no_infinite_run",
    "Rustla.C29_bound",
    "Rustla.C29_returns",
    "Rustla.C29_concrete_no_infinite_run"
   ],
   "note": "Stated for every transition table whose transitions never move the cursor backwards; C29_concrete_no_infinite_run discharges the hypothesis for the program's tables."
  },
  {
   "property": "C30",
   "status": "proved",
   "theorems": [
    "Rustla.C30_cursor_monotone",
    "Rustla.C30_eof_only_at_end",
    "Rustla.C30_concrete_monotone",
    "Rustla.C30_concrete_eof"
   ],
   "note": "Stated for every transition table whose transitions never move the cursor backwards, and discharged for the program's tables by the C30_concrete theorems."
  },
  {
   "property": "C31",
   "status": "proved",
   "theorems": [
    "Rustla.C31_lock_step"
   ],
   "note": "As stated: whenever the transitions pair pushes with newly focused nodes and pops with leaving one."
  },
  {
   "property": "C51",
   "status": "proved",
   "theorems": [
    "Rustla.C51_records_kept",
    "Rustla.C51_citation_recorded",
    "Rustla.C51_footnote_reference_recorded"
   ],
   "note": ""
  },
  {
   "property": "C21",
   "status": "proved",
   "theorems": [
    "Rustla.C21_sections_nest"
   ],
   "note": ""
  },
  {
   "property": "C39",
   "status": "proved",
   "theorems": [
    "Rustla.C39_recorded_points",
    "Rustla.C39_written_points"
   ],
   "note": "Points are natural numbers in the model (u32 in the code, where a debug build panics on overflow)."
  },
  {
   "property": "C52",
   "status": "proved",
   "theorems": [
    "Rustla.C52_recorded_items",
    "Rustla.C52_written_items"
   ],
   "note": ""
  },
  {
   "property": "C53",
   "status": "partial",
   "theorems": [
    "Rustla.C53_violated_literal_block",
    "Rustla.C53_violated_definition_list"
   ],
   "note": "The claim is false of the code (findings); the conditional version is C31_lock_step."
  },
  {
   "property": "C40",
   "status": "proved",
   "theorems": [
    "Rustla.C40_document_order",
    "Rustla.C40_focus",
    "Rustla.C40_complete"
   ],
   "note": ""
  },
  {
   "property": "C43",
   "status": "proved",
   "theorems": [
    "Rustla.C43_sections"
   ],
   "note": ""
  },
  {
   "property": "C44",
   "status": "proved",
   "theorems": [
    "Rustla.C44_wrapper",
    "Rustla.C44_parsed"
   ],
   "note": ""
  },
  {
   "property": "C46",
   "status": "proved",
   "theorems": [
    "Rustla.C46_captions",
    "Rustla.transform_enough"
   ],
   "note": "For trees without list tables; list tables are the subject of C47."
  },
  {
   "property": "C47",
   "status": "proved",
   "theorems": [
    "Rustla.C47_list_tables",
    "Rustla.transform_enough"
   ],
   "note": ""
  },
  {
   "property": "C41",
   "status": "partial",
   "theorems": [
    "Rustla.C41_balanced_partial",
    "Rustla.C41_escaped_text",
    "Rustla.C41_comment",
    "Rustla.C41_violated_role",
    "Rustla.C41_violated_raw"
   ],
   "note": "False of the code for roles named begin/end and for Raw nodes (findings). Proved for all trees without these nodes, images with a scale, and texts that are not balanced themselves."
  },
  {
   "property": "C42",
   "status": "partial",
   "theorems": [
    "Rustla.C42_made_kinds",
    "Rustla.C42_written_partial",
    "Rustla.C42_violated_target",
    "Rustla.C42_violated_substitution"
   ],
   "note": "False of the code for external hyperlink targets and substitution references (unimplemented in the writer). Proved for all documents without the kinds of nodes that the writer cannot write."
  },
  {
   "property": "C45",
   "status": "partial",
   "theorems": [
    "Rustla.C45_partial",
    "Rustla.C45_violated"
   ],
   "note": "False of the code: a single call of write per string, whose count is ignored. Proved for streams that accept every chunk completely."
  },
  {
   "property": "C48",
   "status": "proved",
   "theorems": [
    "Rustla.C48_comments",
    "Rustla.C48_comment_lines"
   ],
   "note": ""
  },
  {
   "property": "C49",
   "status": "partial",
   "theorems": [
    "Rustla.C49_code_block_partial",
    "Rustla.C49_literal_block_partial",
    "Rustla.C49_violated"
   ],
   "note": "False for the code directive: its text is dropped. Proved for code-block and literal blocks."
  },
  {
   "property": "C36",
   "status": "proved",
   "theorems": [
    "Rustla.C36_arguments"
   ],
   "note": "Option lines are specified independently of the regular expression (Spec/Fields.lean); isMatch_field and captures_field connect the two."
  },
  {
   "property": "C37",
   "status": "proved",
   "theorems": [
    "Rustla.C37_options",
    "Rustla.FieldLine_unique",
    "Rustla.OptionLine_unique"
   ],
   "note": ""
  },
  {
   "property": "C38",
   "status": "proved",
   "theorems": [
    "Rustla.C38_math_blocks",
    "Rustla.C38_names",
    "Rustla.Spec.Groups.flatten",
    "Rustla.Spec.Groups.unique"
   ],
   "note": "For directives whose equations are in the content; equations given as arguments become a single block."
  },
  {
   "property": "C50",
   "status": "proved",
   "theorems": [
    "Rustla.C50_paragraphs",
    "Rustla.C50_output"
   ],
   "note": "C50_paragraphs gives the tree; C50_output the LaTeX text for paragraphs without backslashes. The source must have at least one line: an empty source fails to parse."
  },
  {
   "property": "C54",
   "status": "proved",
   "theorems": [
    "Rustla.C54_terminates",
    "Rustla.C54_any_bound"
   ],
   "note": "The bound is very generous (it multiplies over the size of the text); what matters is that it exists and depends on the text alone."
  },
  {
   "property": "C55",
   "status": "proved",
   "theorems": [
    "Rustla.C55_only_known_crashes",
    "Rustla.C55_each_happens",
    "Rustla.C55_program",
    "Rustla.C55_program_each"
   ],
   "note": "That the program never panics is false of the code; these theorems give the exact list of panics, each with a document that reaches it."
  },
  {
   "property": "C56",
   "status": "proved",
   "theorems": [
    "Rustla.C56_documents",
    "Rustla.C56_wrapped",
    "Rustla.C56_output",
    "Rustla.C56_depth_violated"
   ],
   "note": "C56_documents gives the tree with its labels; C56_output the LaTeX text. The limit on the depth is one of the code (C56_depth_violated): the parser gives up after ten rounds without progress. Section titles are written without escaping."
  },
  {
   "property": "C57",
   "status": "proved",
   "theorems": [
    "Rustla.C57_markup",
    "Rustla.C57_doubled_marks",
    "Rustla.C57_needs_following",
    "Rustla.C57_role_not_escaped",
    "Rustla.C57_link_swallows",
    "Rustla.C57_title_swallowed",
    "Rustla.C57_long_pep",
    "Rustla.C57_address_cut",
    "Rustla.C57_spaced_address",
    "Rustla.C57_short_address",
    "Rustla.C57_brace_not_escaped",
    "Rustla.C57_two_brackets"
   ],
   "note": "For the markup listed in Spec/Markup.lean; inline targets, anonymous references, references to footnotes without a number, substitution references, e-mail addresses whose mail box is called iris, soap, xmlrpc or z39 (halves of schemes), addresses without a path or with a query and markup directly behind braces or square brackets are not among the pieces."
  },
  {
   "property": "C58",
   "status": "partial",
   "theorems": [
    "Rustla.C58_once_partial",
    "Rustla.C58_violated"
   ],
   "note": "False of the code: formulas are converted when they are read and again when they are written, which turns a percent sign into a line break and a live comment sign. Proved for formulas without #, $ and %."
  },
  {
   "property": "C59",
   "status": "proved",
   "theorems": [
    "Rustla.C59_line_endings",
    "Rustla.C59_every_text",
    "Rustla.C59_same_run",
    "Rustla.C59_refused"
   ],
   "note": "The decoder is the one of Lean's library; a text is read exactly as described by Spec.Encodes, everything else is refused."
  },
  {
   "property": "C60",
   "status": "proved",
   "theorems": [
    "Rustla.C60_files",
    "Rustla.C60_stdout",
    "Rustla.C60_no_place",
    "Rustla.C60_stdout_complete",
    "Rustla.C60_file_complete"
   ],
   "note": "The operating system is an arbitrary World; streams that accept only part of a chunk are the subject of C45."
  },
  {
   "property": "C61",
   "status": "partial",
   "theorems": [
    "Rustla.C61_no_effect_before_writing_partial",
    "Rustla.C61_earlier_output_violated"
   ],
   "note": "False of the code: the output file is emptied before the writer, which may panic, starts. Proved: nothing is touched unless the source was read and neither parser nor transforms panicked."
  },
  {
   "property": "C62",
   "status": "partial",
   "theorems": [
    "Rustla.C62_source_kept_partial",
    "Rustla.C62_source_violated"
   ],
   "note": "False of the code: with --to-file a source called x.tex is overwritten (and aplus.cls with --aplus-cls). Proved for all other names."
  },
  {
   "property": "C63",
   "status": "proved",
   "theorems": [
    "Rustla.C63_image_violated",
    "Rustla.C63_code_lost",
    "Rustla.C63_nodes",
    "Rustla.C63_output"
   ],
   "note": "For the comments and directives listed in Spec/Leaves.lean, followed by a blank line. That this also holds between other blocks is part of C56."
  },
  {
   "property": "C64",
   "status": "proved",
   "theorems": [
    "Rustla.C64_submit_violated",
    "Rustla.C64_class_doubled",
    "Rustla.C64_nodes",
    "Rustla.C64_output"
   ],
   "note": "For the directives listed as Box in Spec/Leaves.lean. Blocks in admonitions with a fixed title are read by a nested parser; for them the blocks contain no further directives with blocks and no attributions, and their blank lines are empty. The first block below a directive is not a block quote."
  },
  {
   "property": "C65",
   "status": "proved",
   "theorems": [
    "Rustla.C65_exercise",
    "Rustla.C65_parts"
   ],
   "note": "keyDifficultyPoints is the model of the function; its result is compared with the independent exerciseParts of Spec/Leaves.lean, which C65_parts characterises. Keys with _ or - are cut off (finding)."
  },
  {
   "property": "C66",
   "status": "proved",
   "theorems": [
    "Rustla.C66_nodes",
    "Rustla.C66_output"
   ],
   "note": "For the entries described in Spec/Questions.lean; that questionnaires may stand between other blocks, in sections and in lists is part of C56. Points are unbounded numbers in the model."
  },
  {
   "property": "C67",
   "status": "proved",
   "theorems": [
    "Rustla.C67_nodes",
    "Rustla.C67_output",
    "Rustla.C67_bare_nodes",
    "Rustla.C67_bare_output",
    "Rustla.C67_title_instead",
    "Rustla.C67_nested_violated",
    "Rustla.C67_rest_lost"
   ],
   "note": "For a document of one announcement and one literal block; that such a pair may stand between other blocks, in lists, sections, directives and figures is part of C56 (Part.literal; Part.bare for a line of two colons, here with the paragraph before it and arbitrary blocks behind it), except in blocks that are read by a nested parser, where the indentation is computed wrongly (finding)."
  },
  {
   "property": "C68",
   "status": "proved",
   "theorems": [
    "Rustla.C68_nodes",
    "Rustla.C68_output",
    "Rustla.C68_hyphens_violated",
    "Rustla.C68_nested_violated"
   ],
   "note": "For a document of a paragraph and one block quote; that block quotes may stand in items, sections and each other, several behind each other, is part of C56 (Blocks.quote). Attributions with three hyphens keep the third (finding), and those in nested parsers lose characters (finding)."
  },
  {
   "property": "C69",
   "status": "proved",
   "theorems": [
    "Rustla.C69_nodes",
    "Rustla.C69_output",
    "Rustla.C69_start_lost",
    "Rustla.C69_directive_violated"
   ],
   "note": "For a document of one list with arabic numbers; that such lists may stand between other blocks, in lists of all kinds and sections, and that a list with other delimiters or another number starts a new list, is part of C56 (Items, Tag.number). The items contain no directives with blocks (false of the code: C69_directive_violated). The first number is not in the output (C69_start_lost)."
  },
  {
   "property": "C70",
   "status": "proved",
   "theorems": [
    "Rustla.C70_nodes",
    "Rustla.C70_output",
    "Rustla.C70_name_raw"
   ],
   "note": "For a document of one field list; that field lists may stand between other blocks, in lists of all kinds and sections, is part of C56 (Items, Tag.field). Names are written without escaping (C70_name_raw)."
  },
  {
   "property": "C71",
   "status": "proved",
   "theorems": [
    "Rustla.C71_nodes",
    "Rustla.C71_output",
    "Rustla.C71_rest_lost",
    "Rustla.C71_rest_nodes_violated",
    "Rustla.C71_rest_violated",
    "Rustla.C71_list_nodes_violated",
    "Rustla.C71_list_violated",
    "Rustla.C71_nested_violated",
    "Rustla.C71_blank_violated"
   ],
   "note": "For a document of any blocks and a definition list at its end; that definition lists followed by a paragraph may stand between other blocks, in lists, sections and definitions is part of C56 (Blocks.defs). Other blocks behind a definition list end the parse (C71_rest_lost); at a line of two dots this is proved for all documents and whatever is behind it (C71_rest_violated), and so at the first line of a list of bullets, numbers or fields (C71_list_violated)."
  },
  {
   "property": "C72",
   "status": "proved",
   "theorems": [
    "Rustla.C72_nodes",
    "Rustla.C72_output",
    "Rustla.C72_label_lost",
    "Rustla.C72_nested_violated",
    "Rustla.C72_short_name_violated"
   ],
   "note": "For a document of any number of notes and any blocks behind them; that notes may stand between other blocks, in lists, sections and each other is part of C56 (Blocks.note), except in blocks that are read by a nested parser (C72_nested_violated). Footnotes with automatic numbers or symbols are not covered here (see C22); their labels are not in the output (C72_label_lost)."
  },
  {
   "property": "C73",
   "status": "proved",
   "theorems": [
    "Rustla.C73_nodes",
    "Rustla.C73_output",
    "Rustla.C73_ends_violated",
    "Rustla.C73_needs_blank",
    "Rustla.C73_after_list"
   ],
   "note": "For a document of any blocks and transitions before the first title; that transitions may stand in sections is part of C56 (Sec.more). Shorter lines between blank lines, and transitions in the first or the last line of the text, end the parse (C73_ends_violated), and so do those without a blank line before them (C73_needs_blank, for every state of the parser; C73_after_list)."
  },
  {
   "property": "C74",
   "status": "proved",
   "theorems": [
    "Rustla.C74_anonymous_violated",
    "Rustla.C74_nodes",
    "Rustla.C74_output",
    "Rustla.C74_formula_nodes",
    "Rustla.C74_formula_output",
    "Rustla.C74_figure_nodes",
    "Rustla.C74_figure_output",
    "Rustla.C74_elsewhere",
    "Rustla.C74_text_lost",
    "Rustla.C74_lost_violated",
    "Rustla.C74_nested_violated",
    "Rustla.C74_short_violated",
    "Rustla.C74_content_violated"
   ],
   "note": "For targets before the first title of a document, and before a formula or a figure that is followed by any blocks; that they may stand before every title, formula, figure, paragraph and directive is part of C56 (Sec.targets, Part.anchored, Part.anchoredText, Blocks.anchor). Labels of targets before other nodes than sections, figures and formulas are never written (C74_elsewhere, C74_text_lost, C74_lost_violated), targets in admonitions drop what follows them there (C74_nested_violated), short names are read as comments (C74_short_violated), targets with content crash the writer (C74_content_violated)."
  },
  {
   "property": "C75",
   "status": "proved",
   "theorems": [
    "Rustla.C75_nodes",
    "Rustla.C75_output",
    "Rustla.C75_letters_violated",
    "Rustla.C75_sign_violated"
   ],
   "note": "For a document of one list; that such lists may stand between other blocks, in lists of all kinds and sections is part of C56 (Items, Tag.number, Counter). Letters that are Roman numerals as well are excluded: they are read as such (C75_letters_violated). Items of one line without blank lines between them are excluded unless they have number signs (C75_sign_violated, C82_violated)."
  },
  {
   "property": "C76",
   "status": "proved",
   "theorems": [
    "Rustla.C76_nodes",
    "Rustla.C76_output",
    "Rustla.C76_numbers",
    "Rustla.C76_widths_violated"
   ],
   "note": "For a document of one table; that tables may stand between other blocks, in sections and in items of bullet lists is part of C56 (Part.table). Given widths are written as they are and not divided by their sum (C76_widths_violated)."
  },
  {
   "property": "C77",
   "status": "proved",
   "theorems": [
    "Rustla.C77_stdout",
    "Rustla.C77_file",
    "Rustla.C56_wrapped"
   ],
   "note": "The composition of C01, C56, C59 and C60 with the absence of panics. That short writes lose output is C45."
  },
  {
   "property": "C78",
   "status": "proved",
   "theorems": [
    "Rustla.C78_nodes",
    "Rustla.C78_output",
    "Rustla.C78_one_line_violated",
    "Rustla.C78_cut_violated",
    "Rustla.C78_end_violated",
    "Rustla.C78_options_violated"
   ],
   "note": "For one admonition and any blocks in it and behind it; that they may stand anywhere in a document is part of C56. The other theorems are findings: one line of text alone takes the paragraphs behind it, a line directly behind the text loses characters, nothing behind the text is a panic, and with options the next paragraph is joined to the text."
  },
  {
   "property": "C79",
   "status": "proved",
   "theorems": [
    "Rustla.C79_lengths",
    "Rustla.C79_percentages",
    "Rustla.C79_numbers",
    "Rustla.C79_widths",
    "Rustla.C79_image_alignments",
    "Rustla.C79_figure_alignments"
   ],
   "note": "If and only if, for every text. Numbers are exact rationals in the model, not the nearest floating point numbers. Column widths: for texts of digits, points and plus signs only, as the model takes other forms of floating point numbers (exponents, negative numbers) for errors."
  },
  {
   "property": "C80",
   "status": "partial",
   "theorems": [
    "Rustla.C80_blocks",
    "Rustla.C80_node_partial",
    "Rustla.C80_output_partial",
    "Rustla.C80_violated",
    "Rustla.C63_code_lost"
   ],
   "note": "code-block and sourcecode: proved as stated. The directive code: the lines are in the node (C80_node_partial), but the output is an empty environment for every code (C80_output_partial), so that documents that differ in the code only have the same output (C80_violated): the full claim is false of the program."
  },
  {
   "property": "C81",
   "status": "partial",
   "theorems": [
    "Rustla.C81_nodes_partial",
    "Rustla.C81_violated",
    "Rustla.C64_class_doubled"
   ],
   "note": "Proved: one node with the names, nothing in it but the blocks below it, in order, and nothing of what follows (C81_nodes_partial). False of the program: the blocks are in the node and in the output twice, for all tidy contents that do not begin with a list (C81_violated)."
  },
  {
   "property": "C82",
   "status": "partial",
   "theorems": [
    "Rustla.C82_paragraphs_partial",
    "Rustla.C82_output_partial",
    "Rustla.C82_violated",
    "Rustla.C82_large_violated"
   ],
   "note": "Proved: numbered lines above ordinary text or a numeral that does not fit are paragraphs. False of the program: lists of all kinds without blank lines between their items are one paragraph (C82_violated; the cause is C12_violated)."
  },
  {
   "property": "C83",
   "status": "partial",
   "theorems": [
    "Rustla.C83_nodes_partial",
    "Rustla.C83_output_partial",
    "Rustla.C83_violated"
   ],
   "note": "Proved: one node with exactly the contents in order and one column break for each ::newcol line, and the poi environment with \\newcol at these places, for contents of paragraphs, comments, directives without blocks and column breaks. False of the program: ::newcol directly below a paragraph, or in lists in the point of interest, is text, and text behind ::newcol is lost (C83_violated)."
  },
  {
   "property": "C84",
   "status": "partial",
   "theorems": [
    "Rustla.C84_nodes_violated",
    "Rustla.C84_violated",
    "Rustla.C84_end_nodes_partial",
    "Rustla.C84_end_partial"
   ],
   "note": "Proved as stated for a directive at the end of a document (C84_end_*), where nothing but blank lines follows it. With blocks behind it, false of the program, and proved so for all such documents: the directive contains all blocks behind it at the same indentation, and its environment is around them in the output. Proved of what is left: the blocks before the directive are spared, and nothing is lost."
  },
  {
   "property": "C85",
   "status": "partial",
   "theorems": [
    "Rustla.C85_nodes_partial",
    "Rustla.C85_output_partial",
    "Rustla.C85_nodes_violated",
    "Rustla.C85_violated"
   ],
   "note": "Proved for all blocks before and behind the dots if those behind are not indented. False of the program for an indented block behind the dots (C85_violated, for all such blocks): its lines become the text of the comment, so the block is commented out. Blocks behind it are spared."
  },
  {
   "property": "C86",
   "status": "partial",
   "theorems": [
    "Rustla.C86_nodes_partial",
    "Rustla.C86_output_partial",
    "Rustla.C86_nodes_violated",
    "Rustla.C86_violated"
   ],
   "note": "Proved for all lines of which none is less indented than the first one, with any contents, between any blocks. False of the program if an indented line is less indented than the first one: it ends the comment and is read as a block quote (C86_violated, for all such documents)."
  },
  {
   "property": "C87",
   "status": "partial",
   "theorems": [
    "Rustla.C87_nodes_violated",
    "Rustla.C87_violated"
   ],
   "note": "False of the program, and proved so for all names, all words as addresses, all blocks before and all lines behind the target: the parse fails, and what is behind the target is lost without a message (a panic or an error in the output). Proved of what is left: the blocks before the target keep their structure and are written. Addresses that are recognised as such let the writer crash (C74_content_violated, C42_violated_target)."
  }
 ]
}