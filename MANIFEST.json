{
 "claims": [
  {
   "property": "C01",
   "status": "proved",
   "theorems": [
    "L2J.C01_extract_iff",
    "L2J.C01_extract_none_iff",
    "L2J.C01_content_balanced",
    "L2J.C01_round_trip"
   ],
   "note": "Full characterisation by position-based bracket depth; balanced content; completeness as a round trip."
  },
  {
   "property": "C02",
   "status": "proved",
   "theorems": [
    "L2J.C02_seq_iff",
    "L2J.C02_position",
    "L2J.C02_unlimited"
   ],
   "note": "Iff with the maximal block sequence; unlimited calls terminate. Closing delimiter assumed not to be a backslash."
  },
  {
   "property": "C03",
   "status": "proved",
   "theorems": [
    "L2J.C03_balance_iff",
    "L2J.C03_extract_balanced"
   ],
   "note": "Iff with prefix-depth specification."
  },
  {
   "property": "C04",
   "status": "proved",
   "theorems": [
    "L2J.C04_find_end_iff",
    "L2J.C04_equation_iff",
    "L2J.C04_equation_none_iff"
   ],
   "note": "Iff with first live top-level occurrence."
  },
  {
   "property": "C05",
   "status": "partial",
   "theorems": [
    "L2J.C05_args_exact",
    "L2J.C05_args_partial",
    "L2J.C05_args_violated_always",
    "L2J.C05_args_violated"
   ],
   "note": "The code violates the property: with required arguments and at least one optional block the reported position is always wrong (relative to the text after the optional blocks). Blocks themselves are right; position proved right in the remaining cases."
  },
  {
   "property": "C06",
   "status": "partial",
   "theorems": [
    "L2J.C06_delimited_args",
    "L2J.C06_deterministic",
    "L2J.C06_shape",
    "L2J.C06_position_partial",
    "L2J.C06_position_violated"
   ],
   "note": "Results proved; the documented end position is violated (may include whitespace before a missing required argument), proved exact up to whitespace."
  },
  {
   "property": "C07",
   "status": "proved",
   "theorems": [
    "L2J.C07_strip_lines",
    "L2J.C07_line_unique",
    "L2J.C07_no_comment_left",
    "L2J.C07_line_count",
    "L2J.C07_idempotent",
    "L2J.C07_not_idempotent_in_general"
   ],
   "note": "Includes the counterexample showing the no-trailing-blank-line proviso is needed."
  },
  {
   "property": "C08",
   "status": "partial",
   "theorems": [
    "L2J.C08_reading",
    "L2J.C08_reading_unique",
    "L2J.C08_substitute_partial",
    "L2J.C08_substitute_math_partial",
    "L2J.C08_identity",
    "L2J.C08_check_has_param",
    "L2J.C08_zero_violated",
    "L2J.C08_double_backslash_violated"
   ],
   "note": "Exact token-level semantics proved for definitions without a parameter #0 (text and math mode); violations proved: #0 yields the last argument (Python negative index), and a parameter after a double backslash is treated as escaped."
  },
  {
   "property": "C09",
   "status": "proved",
   "theorems": [
    "L2J.C09_pattern_iff",
    "L2J.C09_pattern_none_iff",
    "L2J.C09_search_leftmost",
    "L2J.C09_env_block",
    "L2J.C09_env_block_start"
   ],
   "note": "Iff with the depth-counted block of matches; for \\begin/\\end environments as well."
  },
  {
   "property": "C10",
   "status": "proved",
   "theorems": [
    "L2J.C10_terminates",
    "L2J.C10_one_pass",
    "L2J.C10_fuel_irrelevant",
    "L2J.C10_patterns",
    "L2J.C10_diverges_without_progress"
   ],
   "note": "Single pass; terminates when the handler consumes at least one character; diverges otherwise."
  },
  {
   "property": "C11",
   "status": "proved",
   "theorems": [
    "L2J.C11_loop_exits",
    "L2J.C11_value",
    "L2J.C11_injective",
    "L2J.C11_canonical",
    "L2J.C11_standard",
    "L2J.C11_nonpositive"
   ],
   "note": "Value, injectivity and canonical shape for every positive n."
  },
  {
   "property": "C12",
   "status": "partial",
   "theorems": [
    "L2J.C12_decimal",
    "L2J.C12_numbered_partial",
    "L2J.C12_sequence_partial",
    "L2J.C12_unnumbered",
    "L2J.C12_others",
    "L2J.C12_violated_in_table"
   ],
   "note": "Numbers 1..n proved for every document read through token contents; violated for numbered tokens inside table rows, which the builder never visits."
  },
  {
   "property": "C13",
   "status": "partial",
   "theorems": [
    "L2J.C13_unique_partial",
    "L2J.C13_every_section_numbered",
    "L2J.C13_extends_partial",
    "L2J.C13_violated_two_appendices",
    "L2J.C13_violated_nested_appendix"
   ],
   "note": "Unique and hierarchical for every document with at most one top-level appendix mark; the code violates uniqueness with two appendix marks or an appendix mark inside another token."
  },
  {
   "property": "C14",
   "status": "proved",
   "theorems": [
    "L2J.C14_nesting",
    "L2J.C14_content_follows_heading"
   ],
   "note": "Nesting for every document; content placement for documents without bibliography tokens."
  },
  {
   "property": "C15",
   "status": "proved",
   "theorems": [
    "L2J.C15_same_reading",
    "L2J.C15_document",
    "L2J.C15_flat",
    "L2J.C15_appendix_bibliography_reorders",
    "L2J.C15_heading_content_discarded"
   ],
   "note": "Node-by-node equality of the preorder readings; two theorems show what happens outside the property's scope."
  },
  {
   "property": "C16",
   "status": "partial",
   "theorems": [
    "L2J.C16_form_partial",
    "L2J.C16_distinct_partial",
    "L2J.C16_violated_star",
    "L2J.C16_violated_appendix"
   ],
   "note": "Distinct for every document without appendix marks and unnumbered top-level sections; the code violates the property otherwise (two counterexamples)."
  },
  {
   "property": "C17",
   "status": "proved",
   "theorems": [
    "L2J.C17_merge",
    "L2J.C17_others_kept",
    "L2J.C17_level_idempotent",
    "L2J.C17_deep"
   ],
   "note": "Full specification as merging of maximal runs, one level and deep; idempotent."
  },
  {
   "property": "C18",
   "status": "partial",
   "theorems": [
    "L2J.C18_repeatable_partial",
    "L2J.C18_twice_partial"
   ],
   "note": "Repeatability proved for every history; that the caller's list is untouched (deepcopy) is outside a value model."
  },
  {
   "property": "C19",
   "status": "partial",
   "theorems": [
    "L2J.C19_depth_partial",
    "L2J.C19_violated_in_table"
   ],
   "note": "Proved for every list token reached through contents, for every document; violated in table cells."
  },
  {
   "property": "C20",
   "status": "partial",
   "theorems": [
    "L2J.C20_build_succeeds_partial",
    "L2J.C20_violated"
   ],
   "note": "The code violates the property for levels 0 and >= 4 (KeyError), proved for every such document; success proved for all other documents."
  },
  {
   "property": "C21",
   "status": "proved",
   "theorems": [
    "L2J.Factory.C21_create",
    "L2J.Factory.C21_unknown_ok",
    "L2J.Factory.C21_create_total",
    "L2J.Factory.C21_build",
    "L2J.Factory.C21_mathenv_unknown_raises",
    "L2J.Factory.C21_table_attributes_lost"
   ],
   "note": "Faithful, order-preserving construction for every value; totality on values of the documented shape; two theorems record where the code deviates (unknown token in a theorem raises, table attributes lost)."
  },
  {
   "property": "C22",
   "status": "partial",
   "theorems": [
    "L2J.C22_split_raw",
    "L2J.C22_cells_partial",
    "L2J.C22_rows_partial",
    "L2J.C22_violated_escaped_brace",
    "L2J.C22_split_cells",
    "L2J.C22_makecell",
    "L2J.C22_violated_makecell"
   ],
   "note": "Proved as an equivalence for every text without escaped braces; for all texts the exact behaviour is characterised (escaped braces counted) and the resulting violation of the property is proved. A \\makecell or \\shortstack cell becomes its argument for every argument; text beside it in the cell is lost (violation proved)."
  },
  {
   "property": "C23",
   "status": "partial",
   "theorems": [
    "L2J.C23_if_fi",
    "L2J.C23_if_else_fi",
    "L2J.C23_elsif_partial",
    "L2J.C23_unclosed",
    "L2J.C23_not_handled_only_if",
    "L2J.C23_iffalse",
    "L2J.C23_default_wf",
    "L2J.C23_violated_elsif_lost",
    "L2J.C23_violated_elsif_after_else",
    "L2J.C23_violated_unclosed_at_end"
   ],
   "note": "Branches proved for every conditional with if/else/fi and for elsif chains ending in an else; the code violates the property for an elsif without else (text lost), an elsif after else (uncaught IndexError) and an unclosed conditional whose text ends at a delimiter (handled as closed), each proved in general."
  },
  {
   "property": "C24",
   "status": "partial",
   "theorems": [
    "L2J.C24_bibtex_terminates",
    "L2J.C24_bibdiv_terminates",
    "L2J.C24_fields_kept",
    "L2J.C24_bibdiv_fields",
    "L2J.C24_round_trip",
    "L2J.C24_violated_bare_value",
    "L2J.C24_violated_quote"
   ],
   "note": "Termination for every text, all braced/quoted fields kept, and a round trip through the library's own renderer; the code violates the property for quoted values that contain a braced quote (value truncated) and drops unquoted values such as year = 2023, each proved in general."
  },
  {
   "property": "C25",
   "status": "proved",
   "theorems": [
    "L2J.C25_first_definition_wins",
    "L2J.C25_keys_unique",
    "L2J.C25_lookup"
   ],
   "note": "For every file system, parser behaviour (including exceptions) and comma-separated list of files."
  },
  {
   "property": "C26",
   "status": "partial",
   "theorems": [
    "L2J.C26_first_existing",
    "L2J.C26_unreadable",
    "L2J.C26_not_found",
    "L2J.C26_violated_empty_file_shadowed",
    "L2J.C26_violated_bare_name"
   ],
   "note": "Proved whenever the first existing candidate is not an empty file; the code reads an unrelated file instead of an existing empty one and raises for a bare name that is not found, each proved in general."
  },
  {
   "property": "C29",
   "status": "proved",
   "theorems": [
    "L2J.C29_first_main",
    "L2J.C29_not_found"
   ],
   "note": "For every directory tree; os.walk's order of a directory's entries is arbitrary."
  },
  {
   "property": "C43",
   "status": "proved",
   "theorems": [
    "L2J.C43_exact",
    "L2J.C43_with_extension",
    "L2J.C43_not_found"
   ],
   "note": "For every file system."
  },
  {
   "property": "C27",
   "status": "partial",
   "theorems": [
    "L2J.C27_zip",
    "L2J.C27_tar_partial",
    "L2J.C27_accepted",
    "L2J.C27_violated_tar_link"
   ],
   "note": "Proved for every zip archive and for every tar archive without links; for tar archives with symbolic links the code violates the property, proved for every link name, file name and outside directory."
  },
  {
   "property": "C28",
   "status": "partial",
   "theorems": [
    "L2J.Reader.C28_compressed_cleanup",
    "L2J.Reader.C28_caller_cleanup",
    "L2J.Reader.C28_process_success",
    "L2J.Reader.C28_failure_points",
    "L2J.Reader.C28_violated_process_failure",
    "L2J.Reader.C28_violated_stale_directory"
   ],
   "note": "process_compressed cleans up at every failure point; process(cleanup=True) leaks its directory on every failure and process_compressed(cleanup=True) returns a deleted directory, both proved."
  },
  {
   "property": "C30",
   "status": "partial",
   "theorems": [
    "L2J.Reader.C30_documented",
    "L2J.Reader.C30_missing_input",
    "L2J.Reader.C30_archive_failure",
    "L2J.Reader.C30_result_partial",
    "L2J.Reader.C30_violated_parse_failure"
   ],
   "note": "Only the documented exceptions escape, at every failure point; but a parser failure is swallowed and returned as an empty document, proved in general."
  },
  {
   "property": "C33",
   "status": "partial",
   "theorems": [
    "L2J.C33_normal_form_partial",
    "L2J.C33_every_text",
    "L2J.C33_same_words_partial",
    "L2J.C33_no_double_blank_partial",
    "L2J.C33_trimmed",
    "L2J.C33_idempotent_partial",
    "L2J.C33_violated_marker"
   ],
   "note": "Full specification, word preservation, no double blanks and idempotence for every text not containing the literal internal marker <PARA_BREAK>; the code violates the property for texts that contain it (proved for every pair of words around it)."
  },
  {
   "property": "C32",
   "status": "partial",
   "theorems": [
    "L2J.C32_restore_partial",
    "L2J.C32_round_trip_partial",
    "L2J.C32_normalize_partial",
    "L2J.C32_patterns_wf",
    "L2J.C32_violated_literal_placeholder",
    "L2J.C32_violated_combined"
   ],
   "note": "Exact restoration for every text without the characteristic string VERBATIM_BLOCK (MATH_BLOCK), any list of patterns, any order and multiplicity of placeholders, and through whitespace normalisation; the code violates the property for texts containing placeholder-like strings, even without a complete placeholder. The loop that takes the formulas out is in the model of the preprocessor (C64)."
  },
  {
   "property": "C36",
   "status": "partial",
   "theorems": [
    "L2J.Parse.C36_reading",
    "L2J.Parse.C36_no_adjacent_text_partial",
    "L2J.Parse.C36_no_empty_containers",
    "L2J.Parse.C36_total",
    "L2J.Parse.C36_violated_list"
   ],
   "note": "Proved for every history of additions and labels: the text reading of the output is preserved, empty containers are dropped, additions never fail on well-formed tokens. Adjacent plain texts are merged for single additions; a list (included file) is appended without merging, which is proved as a violation."
  },
  {
   "property": "C37",
   "status": "partial",
   "theorems": [
    "L2J.Parse.C37_current_env",
    "L2J.Parse.C37_previous_token",
    "L2J.Parse.C37_own_token",
    "L2J.Parse.C37_no_label_lost_partial",
    "L2J.Parse.C37_violated_group",
    "L2J.Parse.C37_violated_empty_environment"
   ],
   "note": "Attachment proved for every state; conservation of labels proved for every history that adds no labelled plain text and no labelled empty container. The code loses labels in exactly those two cases; both violations are proved."
  },
  {
   "property": "C44",
   "status": "partial",
   "theorems": [
    "L2J.Flat.C44_numbering",
    "L2J.Flat.C44_distinct",
    "L2J.Flat.C44_lookup",
    "L2J.Flat.C44_recover_partial",
    "L2J.Flat.C44_round_trip_partial",
    "L2J.Flat.C44_styles",
    "L2J.Flat.C44_violated_literal"
   ],
   "note": "Numbering, distinctness, lookup and styles proved for every token list; recovery of every token from any cell proved unless the author's own text contains \"|REF_\"; with a literal placeholder in the text the order of the cell changes (proved violation)."
  },
  {
   "property": "C38",
   "status": "partial",
   "theorems": [
    "L2J.Etool.C38_declared",
    "L2J.Etool.C38_last_assignment",
    "L2J.Etool.C38_only_declared",
    "L2J.Etool.C38_branches",
    "L2J.Etool.C38_violated_no_selection"
   ],
   "note": "The flag map is proved for every history of declarations and assignments; a conditional's token carries both branches exactly. The last step of the property, the selection, does not exist in the code: the token of a conditional is independent of the flags (proved)."
  },
  {
   "property": "C39",
   "status": "partial",
   "theorems": [
    "L2J.KeyVal.C39_latest",
    "L2J.KeyVal.C39_setting_partial",
    "L2J.KeyVal.C39_violated_default",
    "L2J.KeyVal.C39_violated_spaces",
    "L2J.KeyVal.C39_violated_braced_comma",
    "L2J.KeyVal.C39_violated_repeated",
    "L2J.KeyVal.C39_code_partial"
   ],
   "note": "Proved for every history of definitions and every setting list with distinct keys, no blanks around the equals sign and no commas in values; the code violates the property for the remaining cases and ignores declared defaults (all proved as violations)."
  },
  {
   "property": "C40",
   "status": "partial",
   "theorems": [
    "L2J.Boxes.C40_last_saved_partial",
    "L2J.Boxes.C40_never_saved",
    "L2J.Boxes.C40_own_after_clear",
    "L2J.Boxes.C40_violated_savebox_width",
    "L2J.Boxes.C40_violated_numbered",
    "L2J.Boxes.C40_violated_shared",
    "L2J.Boxes.C40_clear"
   ],
   "note": "Proved for every history of declaring, saving (without width), assigning, using and clearing boxes with letter names in any of the three spellings, and for any interleaving of several handlers once cleared. Violations proved: a save with a width saves nothing, numbered boxes cannot be used, handlers never cleared share their boxes. Not modelled: saves inside the content of another box."
  },
  {
   "property": "C42",
   "status": "partial",
   "theorems": [
    "L2J.Envs.C42_latest",
    "L2J.Envs.C42_expand_partial",
    "L2J.Envs.C42_other_untouched",
    "L2J.Envs.C42_violated_blank"
   ],
   "note": "Proved for every history of definitions, every fitting use and every well-nested body: begin code, body, end code in order, parameters substituted (meaning per C08), declared defaults, exact consumption; other environments untouched. The code trims the body and inserts line breaks; a blank before an argument makes it part of the body (proved violation). Environments written as pairs are not modelled."
  },
  {
   "property": "C41",
   "status": "partial",
   "theorems": [
    "L2J.Sty.C41_once",
    "L2J.Sty.C41_terminates",
    "L2J.Sty.C41_parsed",
    "L2J.Sty.C41_violated_directory",
    "L2J.Sty.C41_violated_extension",
    "L2J.Sty.C41_reads",
    "L2J.Sty.C41_found",
    "L2J.Sty.C41_missing"
   ],
   "note": "For every file system, inclusion graph and list of requests: no file is parsed twice and loading ends, with nesting no deeper than the number of readable paths. Missing: parsing between two loads is taken to end, and paths must be canonical after abspath (no symbolic links). Recorded: after an exception in a nested file the directory of the outer one is not restored, and a direct call without extension can parse a file twice."
  },
  {
   "property": "C35",
   "status": "partial",
   "theorems": [
    "L2J.Cmds.C35_definitions_end",
    "L2J.Cmds.C35_expansion_ends",
    "L2J.Cmds.C35_result",
    "L2J.Cmds.C35_violated_parser"
   ],
   "note": "For every history of definitions, registering it and expand_commands on every text end (with a text or the RecursionError), and the result is characterised: a text that a further round leaves alone, reached in fewer than 1000 rounds. The property is false of the main loop of the parser, which replaces commands in place: \\def\\a{\\b}\\def\\b{\\a} keeps it busy for ever (C35_violated_parser)."
  },
  {
   "property": "C45",
   "status": "partial",
   "theorems": [
    "L2J.Loop.C45_terminates_partial",
    "L2J.Loop.C45_violated_group",
    "L2J.Loop.C45_violated_picture"
   ],
   "note": "The main loop ends on every text if every part that accepts a place moves on and replacements shrink (the parts are abstract). The property is false of the code: an unclosed \\bgroup or \\begingroup makes the environment handler accept without moving on, and an unclosed picture makes its handler return -1; both loop for ever."
  },
  {
   "property": "C34",
   "status": "partial",
   "theorems": [
    "L2J.Cmds.C34_builtin_partial",
    "L2J.Cmds.C34_expand_partial",
    "L2J.Cmds.C34_keys",
    "L2J.Cmds.C34_latest_partial",
    "L2J.Cmds.C34_newcommand_used_partial",
    "L2J.Cmds.C34_violated_params",
    "L2J.Cmds.C34_violated_star",
    "L2J.Cmds.C34_violated_dot",
    "L2J.Cmds.C34_violated_let",
    "L2J.Cmds.C34_violated_let_expand",
    "L2J.Cmds.C34_violated_newtoks",
    "L2J.Cmds.C34_violated_extend",
    "L2J.Cmds.C34_violated_newline",
    "L2J.Cmds.C34_violated_newif",
    "L2J.Cmds.C34_reserved_partial"
   ],
   "note": "For every history of definitions written in the usual way, no entry matches at a built-in command (so the parser leaves it to its handlers and expansion leaves it alone), and the last definition of any other name is the only entry that can match there, provided the definitions of that name are of kinds sharing a dictionary slot. The property is false in general, with witnesses: \\def\\sec tion, \\def\\section*, unescaped names in \\let, \\let against \\def, \\newtoks against \\def, self-referential renewcommand, a line break before a word, \\newif prefixes."
  },
  {
   "property": "C31",
   "status": "partial",
   "theorems": [
    "L2J.State.C31_new_reader",
    "L2J.State.C31_new_process_partial",
    "L2J.State.C31_thanks",
    "L2J.State.C31_channels",
    "L2J.State.C31_violated"
   ],
   "note": "For every history of documents, failed or not: the reader behaves like a reader newly made in the same process (C31_new_reader), and like one in a new process if the earlier documents left the class-level dictionaries alone. The processing itself is an arbitrary function of the attributes. The property is false in general: a \\defcitealias within an equation goes into a dictionary of the class that clear never resets (C31_violated), and C31_channels lists all such attributes."
  },
  {
   "property": "C46",
   "status": "partial",
   "theorems": [
    "L2J.Content.C46_heading",
    "L2J.Content.C46_violated_short_title",
    "L2J.Content.C46_violated_case"
   ],
   "note": "Full statement proved for every heading without a short title. The property is false with a short title: \\section[short]{long} is not recognised at all, for every heading and every text (proved in general); and commands in mixed case are accepted but get the wrong level and numbering."
  },
  {
   "property": "C47",
   "status": "partial",
   "theorems": [
    "L2J.Content.C47_cite",
    "L2J.Content.C47_ref",
    "L2J.Content.C47_cref",
    "L2J.Content.C47_hyperref",
    "L2J.Content.C47_href",
    "L2J.Content.C47_url",
    "L2J.Content.C47_doi",
    "L2J.Content.C47_defcitealias",
    "L2J.Content.C47_citealias",
    "L2J.Content.C47_violated_starred"
   ],
   "note": "Proved for every command of the list the converter knows, with all keys, notes without a closing bracket, and blanks. The starred natbib forms (\\citet*{key}) are not recognised, for every command and following text."
  },
  {
   "property": "C48",
   "status": "partial",
   "theorems": [
    "L2J.Content.C48_progress",
    "L2J.Content.C48_raises_iff",
    "L2J.Content.C48_violated_hyperref"
   ],
   "note": "Progress proved for every text; the handler raises exactly at \\hyperref with a closed argument and no optional argument, which is proved to happen for every such text."
  },
  {
   "property": "C49",
   "status": "partial",
   "theorems": [
    "L2J.Tab.C49_table",
    "L2J.Tab.C49_violated_makecell",
    "L2J.Tab.C49_violated_rows_lost",
    "L2J.Tab.C49_violated_beside",
    "L2J.Tab.C49_violated_unclosed"
   ],
   "note": "Full statement for every table whose cells are texts without the special commands, spans, or row spans inside column spans. False otherwise, each proved for all such cells: a \\makecell inside a span loses the span, \\multirow around \\multicolumn loses the number of rows, text beside a span is dropped; an unclosed span swallows the content."
  },
  {
   "property": "C50",
   "status": "partial",
   "theorems": [
    "L2J.Tab.C50_round_trip_partial",
    "L2J.Tab.C50_violated_nested",
    "L2J.Tab.C50_violated_makecell"
   ],
   "note": "Proved for every text without the reference string in which no cell taken out contains a reference. Violated for nested cells: they are put back in the order in which they were taken out, and the inner one stays a reference."
  },
  {
   "property": "C51",
   "status": "partial",
   "theorems": [
    "L2J.Cmds.C51_use_partial",
    "L2J.Cmds.C51_star_partial",
    "L2J.Cmds.C51_def_partial",
    "L2J.Cmds.C51_math_apart",
    "L2J.Cmds.C51_math_reason",
    "L2J.Cmds.C51_violated_unbraced",
    "L2J.Cmds.C51_violated_def_nested"
   ],
   "note": "\\newcommand, \\newcommand with \\@ifstar, and \\def, after any history of plain definitions; the formula part in full. Excluded: bodies that use the command itself, replacements equal to the use. Violated, proved for all such uses: a required argument without braces is not found and nothing is put for it; an argument of a \\def with braces two deep is read as its opening brace."
  },
  {
   "property": "C52",
   "status": "partial",
   "theorems": [
    "L2J.Eqn.C52_formula_partial",
    "L2J.Eqn.C52_nested_partial",
    "L2J.Eqn.C52_plain",
    "L2J.Eqn.C52_empty",
    "L2J.Eqn.C52_labels",
    "L2J.Eqn.C52_order",
    "L2J.Eqn.C52_violated_brackets",
    "L2J.Eqn.C52_violated_dollar",
    "L2J.Eqn.C52_unclosed"
   ],
   "note": "All kinds of formulas, with labels and content commands; the cleaning step is described by the relation Cleans (leftmost command first, replacement looked at again), the formatting handler and the boxes other than saved ones are parameters. The closing delimiter may not occur inside (inline formulas in braces are covered by C52_nested). Violated: \\[ \\] and \\( \\) with unbalanced braces lose their text, an escaped dollar ends the formula."
  },
  {
   "property": "C53",
   "status": "partial",
   "theorems": [
    "L2J.Eqn.C53_ends_partial",
    "L2J.Eqn.C53_pair_partial",
    "L2J.Eqn.C53_violated_box",
    "L2J.Eqn.C53_violated_pair",
    "L2J.Eqn.C53_violated_handle"
   ],
   "note": "Cleaning ends unless \\usebox puts in the text of a saved box; a pair without other commands is converted. Violated: a box used in its own text, and a pair with a command whose name begins with the pair's name (\\array \\arraycolsep \\endarray), each never ends: proved for every amount of fuel."
  },
  {
   "property": "C54",
   "status": "partial",
   "theorems": [
    "L2J.Content.C54_argument",
    "L2J.Content.C54_option",
    "L2J.Content.C54_page",
    "L2J.Content.C54_no_page",
    "L2J.Content.C54_pages_partial",
    "L2J.Content.C54_footnote",
    "L2J.Content.C54_footnotetext",
    "L2J.Content.C54_caption",
    "L2J.Content.C54_captionof",
    "L2J.Content.C54_footnotemark",
    "L2J.Content.C54_footnotemark_none",
    "L2J.Content.C54_appendix",
    "L2J.Content.C54_pdfbookmark",
    "L2J.Content.C54_violated_pages",
    "L2J.Content.C54_violated_page_blank"
   ],
   "note": "All commands in full. Page ranges: in braces, or not followed by a comma. Violated, for every range: without braces the comma before the next option becomes part of the range (pages=1-3,scale=2 gives \"1-3,\"); for every number: page = n with blanks around the equals sign is not seen."
  },
  {
   "property": "C55",
   "status": "partial",
   "theorems": [
    "L2J.EnvT.C55_environment",
    "L2J.EnvT.C55_comment",
    "L2J.EnvT.C55_group",
    "L2J.EnvT.C55_pair",
    "L2J.EnvT.C55_titles",
    "L2J.EnvT.C55_agrees",
    "L2J.EnvT.C55_violated_arguments",
    "L2J.EnvT.C55_violated_bracket",
    "L2J.EnvT.C55_violated_title",
    "L2J.EnvT.C55_violated_unnumbered",
    "L2J.EnvT.C55_violated_pair",
    "L2J.EnvT.C55_violated_interval",
    "L2J.EnvT.C55_violated_begin",
    "L2J.EnvT.C55_violated_blank"
   ],
   "note": "All environments of the tables, comments, groups, pairs and \\newtheorem titles. Violated: arguments beyond those of the tables stay in the text; a bracket at the start of a quotation is lost; theorems with a title of several words and \\newtheorem* are treated wrongly; pairs with a longer command in them lose their text; titles with unmatched brackets; \\beginsupplement raises; blanks in the braces."
  },
  {
   "property": "C56",
   "status": "partial",
   "theorems": [
    "L2J.EnvT.C56_item",
    "L2J.EnvT.C56_list",
    "L2J.EnvT.C56_violated_title",
    "L2J.EnvT.C56_violated_bracket",
    "L2J.EnvT.C56_violated_cut",
    "L2J.EnvT.C56_violated_verbatim"
   ],
   "note": "Items whose body starts with neither a blank nor a bracket, texts without \\name\u2026\\endname pairs. Violated: a title without a body is lost; a second bracket group is lost; a title with ] in braces is cut; \\item written verbatim ends the item."
  },
  {
   "property": "C57",
   "status": "partial",
   "theorems": [
    "L2J.Style.C57_styled",
    "L2J.Style.C57_empty",
    "L2J.Style.C57_char",
    "L2J.Style.C57_nested",
    "L2J.Style.C57_citetext",
    "L2J.Style.C57_frac",
    "L2J.Style.C57_lines",
    "L2J.Style.C57_texorpdf",
    "L2J.Style.C57_color",
    "L2J.Style.C57_fonts",
    "L2J.Style.C57_columns",
    "L2J.Style.C57_twocolumn",
    "L2J.Style.C57_subfloat",
    "L2J.Style.C57_roman",
    "L2J.Style.C57_violated_blanks",
    "L2J.Style.C57_violated_swallow",
    "L2J.Style.C57_violated_subfloat",
    "L2J.Style.C57_violated_repeated",
    "L2J.Style.C57_violated_twocolumn"
   ],
   "note": "The parser called on arguments is any function (its state is not followed). Violated: blanks behind a command at the end of the text raise IndexError; without braces a text ending with { is swallowed; an unclosed \\subfloat[ raises; repeated styles stay when there are several tokens; \\twocolumnfoo is taken for \\twocolumn."
  },
  {
   "property": "C58",
   "status": "partial",
   "theorems": [
    "L2J.Legacy.C58_switch",
    "L2J.Legacy.C58_off",
    "L2J.Legacy.C58_trailing",
    "L2J.Legacy.C58_braces",
    "L2J.Legacy.C58_color",
    "L2J.Legacy.C58_normalcolor",
    "L2J.Legacy.C58_violated_prefix",
    "L2J.Legacy.C58_violated_model",
    "L2J.Legacy.C58_violated_unclosed",
    "L2J.Legacy.C58_violated_brace",
    "L2J.Legacy.C58_violated_break"
   ],
   "note": "Several switches one behind the other at the end of the text are not treated (one is). Violated: a following switch whose name starts with that of the switch is cut (\\it a \\itshape b leaves 'shape b'); a colour model is read as a set of characters, so the next colour switch is cut; an unclosed brace raises; \\bf} takes the brace and all text behind the group; a line break and 'it' at the end is taken for a switch."
  },
  {
   "property": "C59",
   "status": "partial",
   "theorems": [
    "L2J.Code.C59_code",
    "L2J.Code.C59_sound",
    "L2J.Code.C59_unclosed",
    "L2J.Code.C59_violated_indent",
    "L2J.Code.C59_violated_blank",
    "L2J.Code.C59_violated_options",
    "L2J.Code.C59_violated_bracket"
   ],
   "note": "Violated: blanks at the start of the first line are lost (indentation), \\verb| | gives nothing; options with a bracket in braces are cut; code that starts with an unclosed bracket goes on to the end of another listing."
  },
  {
   "property": "C60",
   "status": "partial",
   "theorems": [
    "L2J.Author.C60_authors",
    "L2J.Author.C60_parts",
    "L2J.Author.C60_nothing_lost",
    "L2J.Author.C60_field",
    "L2J.Author.C60_thanks",
    "L2J.Author.C60_curraddr",
    "L2J.Author.C60_violated_unclosed",
    "L2J.Author.C60_violated_group",
    "L2J.Author.C60_violated_break",
    "L2J.Author.C60_violated_curraddr",
    "L2J.Author.C60_violated_bracket"
   ],
   "note": "The parser called on the parts is any function. Violated: an unclosed \\author{ raises; \\and in a group tears the group; a line break before 'and' leaves a backslash; \\curraddr{x} leaves its braces; \\affil[1] without braces reaches up to any ]{ behind it."
  },
  {
   "property": "C61",
   "status": "partial",
   "theorems": [
    "L2J.Defn.C61_alphabet",
    "L2J.Defn.C61_columntype",
    "L2J.Defn.C61_crefname",
    "L2J.Defn.C61_csname",
    "L2J.Defn.C61_def",
    "L2J.Defn.C61_def_expandafter",
    "L2J.Defn.C61_define_then_use_partial",
    "L2J.Defn.C61_definecolor",
    "L2J.Defn.C61_expandafter",
    "L2J.Defn.C61_floatname",
    "L2J.Defn.C61_font",
    "L2J.Defn.C61_let",
    "L2J.Defn.C61_namedef",
    "L2J.Defn.C61_newboolean",
    "L2J.Defn.C61_newcommand",
    "L2J.Defn.C61_newcounter",
    "L2J.Defn.C61_newif",
    "L2J.Defn.C61_newlength",
    "L2J.Defn.C61_newtheorem",
    "L2J.Defn.C61_newtheoremstyle",
    "L2J.Defn.C61_newtoks",
    "L2J.Defn.C61_paired",
    "L2J.Defn.C61_progress",
    "L2J.Defn.C61_register",
    "L2J.Defn.C61_setcounter",
    "L2J.Defn.C61_setlength",
    "L2J.Defn.C61_violated_csname_brace",
    "L2J.Defn.C61_violated_def_backslash",
    "L2J.Defn.C61_violated_def_param",
    "L2J.Defn.C61_violated_default_bracket",
    "L2J.Defn.C61_violated_default_line",
    "L2J.Defn.C61_violated_font",
    "L2J.Defn.C61_violated_length_blank",
    "L2J.Defn.C61_violated_let_char",
    "L2J.Defn.C61_violated_let_equals",
    "L2J.Defn.C61_violated_let_target",
    "L2J.Defn.C61_violated_name_blank",
    "L2J.Defn.C61_violated_namedef",
    "L2J.Defn.C61_violated_newtheorem",
    "L2J.Defn.C61_violated_number_blank",
    "L2J.Defn.C61_violated_register",
    "L2J.Defn.C61_violated_symbol"
   ],
   "note": "Full readings for names of letters and balanced bodies. Violated: blank before the = of a \\let swallows the rest of the document; \\let of a character; text right behind the target of a \\let; blanks in {\\name} or [n]; defaults over a line or with ]; \\,; \\def\\foo(#1); \\def\\\\ raises; \\newlength with a blank; \\newcount\\foo\\foo=3; scaled fonts; \\newtheorem with a blank or braces in the title; \\csname with braces; \\@namedef without a body ends before it begins. \\futurelet with \\csname is not modelled."
  },
  {
   "property": "C62",
   "status": "partial",
   "theorems": [
    "L2J.Fmt.C62_blank",
    "L2J.Fmt.C62_bounds",
    "L2J.Fmt.C62_color",
    "L2J.Fmt.C62_comment",
    "L2J.Fmt.C62_contents",
    "L2J.Fmt.C62_declare",
    "L2J.Fmt.C62_ensuremath",
    "L2J.Fmt.C62_flat",
    "L2J.Fmt.C62_flat1",
    "L2J.Fmt.C62_formula_ends",
    "L2J.Fmt.C62_group",
    "L2J.Fmt.C62_groups",
    "L2J.Fmt.C62_hspace",
    "L2J.Fmt.C62_kern",
    "L2J.Fmt.C62_length",
    "L2J.Fmt.C62_lineskip",
    "L2J.Fmt.C62_line",
    "L2J.Fmt.C62_num",
    "L2J.Fmt.C62_phantom",
    "L2J.Fmt.C62_raises",
    "L2J.Fmt.C62_setup",
    "L2J.Fmt.C62_shortens",
    "L2J.Fmt.C62_silent",
    "L2J.Fmt.C62_strip_number",
    "L2J.Fmt.C62_text",
    "L2J.Fmt.C62_violated_advance",
    "L2J.Fmt.C62_violated_break",
    "L2J.Fmt.C62_violated_glue",
    "L2J.Fmt.C62_violated_group_inside",
    "L2J.Fmt.C62_violated_hphantom",
    "L2J.Fmt.C62_violated_labelsep",
    "L2J.Fmt.C62_violated_name_goes_on",
    "L2J.Fmt.C62_violated_pagebreak",
    "L2J.Fmt.C62_violated_rule",
    "L2J.Fmt.C62_violated_textbackslash",
    "L2J.Fmt.C62_violated_unclosed",
    "L2J.Fmt.C62_vspace",
    "L2J.Fmt.C62_strip_number_alone",
    "L2J.Fmt.C62_units",
    "L2J.Fmt.C62_baselineskip"
   ],
   "note": "Exact readings for the command words listed in Spec/Layout.lean, with progress and bounds for every text. Violated: a word that goes on with letters in a few patterns, \\labelsep, \\textbackslash, an argument with a group inside where the pattern is [^}]*, \\pagebreak[4] leaves its argument, stretchable lengths leave plus 1pt, \\rule[..] is not seen, unclosed arguments leave the brace, \\advance, \\\\ with argument; \\hphantom. Not given an exact reading: ...maketitle, \\cmidrule, \\titlecontents, \\Provides..., \\vskip, \\penalty, \\protect. The number formatter is a parameter; that it does not lengthen is a hypothesis of C62_shortens."
  },
  {
   "property": "C63",
   "status": "partial",
   "theorems": [
    "L2J.Cond.C63_atif",
    "L2J.Cond.C63_bounds",
    "L2J.Cond.C63_else",
    "L2J.Cond.C63_fi",
    "L2J.Cond.C63_ifstar",
    "L2J.Cond.C63_ifthenelse",
    "L2J.Cond.C63_ifx",
    "L2J.Cond.C63_instance_text",
    "L2J.Cond.C63_unclosed",
    "L2J.Cond.C63_violated_at_end",
    "L2J.Cond.C63_violated_ifcase",
    "L2J.Cond.C63_violated_iff",
    "L2J.Cond.C63_violated_iffileexists",
    "L2J.Cond.C63_violated_or",
    "L2J.Cond.C63_violated_prefix",
    "L2J.Cond.C63_violated_short_name",
    "L2J.Cond.C63_violated_text_in_condition",
    "L2J.Cond.C63_violated_two_groups",
    "L2J.Cond.C63_violated_undefined"
   ],
   "note": "Exact readings for declared and undeclared names, \\ifx with two commands and the forms with braces, over the real patterns (also the joined pattern for the start of nested conditionals, which loses VERBOSE). Violated: text right behind an undeclared name becomes its condition and is lost; \\iff inside a branch; commands that begin with \\or; \\ifcase; a declared name stands for longer ones; \\IfFileExists needs a \\fi; a one-letter name takes its \\fi; \\ifundefined is read as \\ifdefined; \\ifthenelse with two groups raises; an \\if at the very end needs no \\fi. Missing: exact readings of \\ifnum, \\ifdim, \\ifcat, \\ifdefined and of nested conditionals of these kinds."
  },
  {
   "property": "C64",
   "status": "partial",
   "theorems": [
    "L2J.Pre.C64_formula_empty",
    "L2J.Pre.C64_formula_general",
    "L2J.Pre.C64_formula_plain",
    "L2J.Pre.C64_formula_symbols",
    "L2J.Pre.C64_fresh",
    "L2J.Pre.C64_preprocess",
    "L2J.Pre.C64_process",
    "L2J.Pre.C64_violated_accent",
    "L2J.Pre.C64_violated_addto",
    "L2J.Pre.C64_violated_at",
    "L2J.Pre.C64_violated_before_class",
    "L2J.Pre.C64_violated_breakspace",
    "L2J.Pre.C64_violated_cycle",
    "L2J.Pre.C64_violated_dollar",
    "L2J.Pre.C64_violated_ensuremath",
    "L2J.Pre.C64_violated_group",
    "L2J.Pre.C64_violated_linebreak",
    "L2J.Pre.C64_violated_par",
    "L2J.Pre.C64_violated_redefined",
    "L2J.Pre.C64_violated_shadowed",
    "L2J.Pre.C64_violated_switch",
    "L2J.Pre.C64_violated_verbatim"
   ],
   "note": "The relation Spec.Becomes says what a reading is; C64_preprocess and C64_fresh say that the whole preprocessor computes it, over the models of all its handlers, for every document that has a reading. Violated: circular definitions never end; what stands before the class is lost; a command behind a line break; definitions inside groups; accents; redefinition with arguments; layout commands hide the user's; switches are not evaluated; conditionals with @; program listings are changed; \\\\$ and \\\\[1ex]; \\par does not end a paragraph; \\ensuremath not closed; \\addto with a group inside its text. Missing: a reading for layout commands without an exact reading in C62, for \\expandafter, \\csname, \\setkeys, for uses whose arguments come from package definitions, and that every document has at most one reading (it follows from the theorem only for the result)."
  },
  {
   "property": "C65",
   "status": "partial",
   "theorems": [
    "L2J.Psr.C65_document_partial",
    "L2J.Psr.C65_fresh",
    "L2J.Psr.C65_unique",
    "L2J.Psr.C65_violated_braces",
    "L2J.Psr.C65_violated_blank_after",
    "L2J.Psr.C65_violated_blank_after_formula",
    "L2J.Psr.C65_violated_break",
    "L2J.Psr.C65_violated_code_percent",
    "L2J.Psr.C65_violated_group_blank",
    "L2J.Psr.C65_violated_label_footnote",
    "L2J.Psr.C65_violated_label_group",
    "L2J.Psr.C65_violated_normalsize",
    "L2J.Psr.C65_violated_par",
    "L2J.Psr.C65_violated_unclosed",
    "L2J.Psr.reading_sound"
   ],
   "note": "The relation Spec.Reading says what a reading is; reading_sound, C65_document_partial and C65_fresh say that the parser computes it, over the models of its handlers, for every document that has a reading; C65_unique: no document is read to two results. Covered: running text, groups, line breaks, labels, unknown commands, headings, notes, references, citations, links, environments, lists, definitions and their uses, conditionals, switches, styled text, formulas of symbols and labels, layout commands, code, comment environments, user-defined environments, groups and environments written as commands, accents, pictures, settings, commands for titles and loops. Violated: an unknown command with an unclosed brace raises; a blank before a group is lost; braces behind a word are kept; a label after a footnote is given to the footnote; a label in a group is lost; \\\\\\\\*[2pt]; a blank behind styled text or a formula is lost; \\\\normalsize becomes a font; \\\\par is lost; a percent sign in code starts a comment. Missing: a reading for formulas with boxes, layout or references in them, authors, tables and boxes inside a document (their handlers are covered by C49-C62)."
  },
  {
   "property": "C66",
   "status": "partial",
   "theorems": [
    "L2J.BibI.C66_items_partial",
    "L2J.BibI.C66_environment_partial",
    "L2J.BibI.C66_dispatch",
    "L2J.BibI.C66_violated_bysame_raises",
    "L2J.BibI.C66_violated_erdos",
    "L2J.BibI.C66_violated_bysame_tab",
    "L2J.BibI.C66_violated_at",
    "L2J.BibI.C66_violated_address"
   ],
   "note": "The entries are those of Spec.Entries for every list of items, alone or in an environment; \\bysame only for authors written without a backslash. Violated: an author with a command such as \\H{o} makes \\bysame raise, so that no entry is returned; \\textsc becomes a tab; @word{ anywhere sends the bibliography to the BibTeX parser and the items are lost."
  },
  {
   "property": "C67",
   "status": "partial",
   "theorems": [
    "L2J.Psr.C67_accent_partial",
    "L2J.Psr.C67_convert_partial",
    "L2J.Psr.C67_violated_empty_group"
   ],
   "note": "The handler for every accent and argument at the beginning of a text; the conversion of a whole text for accents whose arguments contain no backslash, and in which nothing else is written with a backslash. NFC normalisation is a parameter. Violated: an empty group, where the accent is put on the brace, and a command as the argument (\\'\\i)."
  },
  {
   "property": "C68",
   "status": "partial",
   "theorems": [
    "L2J.Sym.C68_convert_partial",
    "L2J.Sym.C68_plain",
    "L2J.Sym.package_table",
    "L2J.Sym.C68_violated_braces",
    "L2J.Sym.C68_violated_twice",
    "L2J.Sym.C68_violated_shadowed"
   ],
   "note": "For every table of ASCII commands, and the table of the package is one. Missing: a command within which another one begins, commands that end in {} or have blanks at their ends, commands of the four early categories that give an ASCII character, escapes below U+0080 and surrogates. Violated: \\sqrt{} becomes \\sqrt; \\textbackslash{}alpha becomes an alpha; \\int\\!\\int is not replaced as a whole."
  },
  {
   "property": "C69",
   "status": "partial",
   "theorems": [
    "L2J.Pkg.C69_picture",
    "L2J.Pkg.C69_overpic",
    "L2J.Pkg.C69_setting",
    "L2J.Pkg.C69_title",
    "L2J.Pkg.C69_package",
    "L2J.Pkg.C69_forloop",
    "L2J.Pkg.C69_foreach_partial",
    "L2J.Pkg.C69_violated_after",
    "L2J.Pkg.C69_violated_body",
    "L2J.Pkg.C69_violated_line"
   ],
   "note": "Full for pictures, overpic, settings, \\forloop and titles with the arguments the handler knows; \\foreach only if its body opens with the last brace of the line and no group follows. Violated: the last optional argument of \\titleformat stays in the text; a \\foreach whose body contains a group on its first line leaves the rest of its body in the text, and text behind it on the line is lost up to the last group."
  },
  {
   "property": "C70",
   "status": "partial",
   "theorems": [
    "L2J.Bbl.C70_entries_partial",
    "L2J.Bbl.C70_violated_type_field",
    "L2J.Bbl.C70_violated_institution",
    "L2J.Bbl.C70_violated_options",
    "L2J.Bbl.C70_violated_initial"
   ],
   "note": "For every bibliography whose entries are plain: keys without braces and commas, balanced values without `@`, authors with family and given name whose given name begins with a letter. Violated: a field named `type` overwrites the entry type and the entry is lost; institutions (no given name) and authors with options before the hash are left out; of a given name in braces only the brace is kept and the entry is lost."
  },
  {
   "property": "C71",
   "status": "partial",
   "theorems": [
    "L2J.Tab.C71_head",
    "L2J.Tab.C71_objects",
    "L2J.Tab.C71_spans_partial",
    "L2J.Tab.C71_unclosed",
    "L2J.Tab.C71_violated_group",
    "L2J.Tab.C71_violated_position",
    "L2J.Tab.C71_violated_newline"
   ],
   "note": "The token, its end, name, star and column specification for every environment (C71_head); the cells when they are texts with objects between them (C71_objects) or texts with spans and no objects (C71_spans_partial); missing: spans and objects in one table, and cells with escaped characters beside objects. The first reading and the cell reader are arbitrary, with stated conditions. Violated: a group at the beginning of the first cell is taken for the column specification; a position after the width of tabularx stays in the first cell; \\tabularnewline between \\tabular and \\endtabular hides the end of the table."
  },
  {
   "property": "C72",
   "status": "partial",
   "theorems": [
    "L2J.Pream.C72_preamble_partial",
    "L2J.Pream.C72_pieces",
    "L2J.Pream.C72_determined",
    "L2J.Pream.C72_violated_before_class",
    "L2J.Pream.C72_violated_begin",
    "L2J.Pream.C72_violated_option",
    "L2J.Pream.C72_violated_conditional",
    "L2J.Pream.C72_violated_environment"
   ],
   "note": "Exactly the pieces, for every preamble of texts, symbols, commands, uses, blocks and the 18 kinds of definitions (C72_preamble_partial); for every content at all, pieces of the right part in order (C72_pieces). Missing from the first: commands whose name begins with use or RequirePackage and that stand before a blank, bracket or brace but use nothing, and definitions written otherwise than Defines. Violated: what stands before the class is lost; \\begin{document} inside a definition cuts it; a bracket in the options hides the package; conditionals are not read; definitions of environments are left out."
  },
  {
   "property": "C73",
   "status": "partial",
   "theorems": [
    "L2J.Enc.C73_utf8",
    "L2J.Enc.C73_latin1",
    "L2J.Enc.C73_other",
    "L2J.Enc.C73_reads",
    "L2J.Enc.C73_before_damage",
    "L2J.Enc.C73_damage_determined",
    "L2J.Enc.C73_raises_iff",
    "L2J.Enc.C73_violated_late",
    "L2J.Enc.C73_violated_unknown"
   ],
   "note": "chardet and the codecs other than UTF-8 and Latin-1 are parameters. Full for UTF-8 and for encodings rightly detected; reading raises exactly for encodings Python does not know. Violated: in a Latin-1 file whose first letter beyond ASCII comes after 10000 bytes every such letter becomes U+FFFD (proved for all such files in which no two such letters are adjacent); a file detected as an encoding that Python does not have (EUC-TW) raises LookupError, the last resort being unreachable."
  },
  {
   "property": "C74",
   "status": "partial",
   "theorems": [
    "L2J.C74_answer",
    "L2J.C74_comment_partial",
    "L2J.C74_sound",
    "L2J.C74_violated_break"
   ],
   "note": "What it answers for every text (C74_answer); that is the property whenever no two backslashes stand side by side before the place (C74_comment_partial), and a true answer is always right (C74_sound). Violated, for all texts around it: a comment directly behind a line break \\\\ is not seen. C07, whose code counts the backslashes, does not have this fault."
  },
  {
   "property": "C75",
   "status": "partial",
   "theorems": [
    "L2J.Prf.C75_nothing_lost",
    "L2J.Prf.C75_only",
    "L2J.Prf.C75_merged",
    "L2J.Prf.C75_deep",
    "L2J.Prf.C75_determined",
    "L2J.Prf.C75_violated_numbering"
   ],
   "note": "The first three parts in full, for every list (C75_merged) and for all lists of a document at every depth (C75_deep), and that leaves one result only (C75_determined). The last part is violated: organising does not look at a merged proof, so nothing in it is numbered; for every list and any two proofs in the same place the rest comes out the same."
  }
 ]
}