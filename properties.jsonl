{"id": "C01", "title": "Delimiter extraction returns exactly the first balanced block", "statement": "extract_nested_content(text, open, close) skips leading whitespace and, when the next character is the opening delimiter, returns the text strictly between it and the closing delimiter that balances it (delimiters preceded by an odd number of backslashes do not count), together with the index just past that closing delimiter. The returned content is itself balanced, no shorter prefix closes the block, and (None, 0) is returned exactly when no such block starts there.", "quantifier": "every text and every pair of distinct delimiter characters", "why_tests_cant": "Unbounded texts, nesting depth and backslash runs; tests sample a handful of strings.", "anchors": ["latex2json/utils/tex_utils.py:find_matching_delimiter", "latex2json/utils/tex_utils.py:extract_nested_content", "latex2json/utils/tex_utils.py:is_escaped"]}
{"id": "C02", "title": "Block sequences stop at the last complete block", "statement": "extract_nested_content_sequence_blocks returns at most max_blocks blocks, each one the balanced block starting after optional whitespace where the previous one ended, and the returned position is the index just past the last returned block (0 when there is none); it always terminates.", "quantifier": "every text, delimiter pair and (finite or infinite) block limit", "why_tests_cant": "Sequences of arbitrary length with arbitrary whitespace and nesting.", "anchors": ["latex2json/utils/tex_utils.py:extract_nested_content_sequence_blocks"]}
{"id": "C03", "title": "Balance check is sound and complete", "statement": "check_delimiter_balance(text) is True exactly when every prefix has at least as many unescaped openers as closers and the totals agree.", "quantifier": "every text and pair of distinct delimiters", "why_tests_cant": "Infinite domain; nesting unbounded.", "anchors": ["latex2json/utils/tex_utils.py:check_delimiter_balance"]}
{"id": "C04", "title": "Inline/display math ends at the first top-level delimiter", "statement": "extract_equation_content(content, d) returns the stripped text up to the first unescaped occurrence of d (after the opening one) outside unescaped braces and the index just past it; it returns ('',0) exactly when content does not start with d or there is no such occurrence.", "quantifier": "every content and every non-empty delimiter string not starting with a brace", "why_tests_cant": "Arbitrary brace nesting and escapes.", "anchors": ["latex2json/utils/tex_utils.py:find_delimiter_end", "latex2json/utils/tex_utils.py:extract_equation_content"]}
{"id": "C05", "title": "Argument extraction reports how much input it consumed", "statement": "extract_args(content, req, opt) returns the optional blocks and then the required blocks that follow them, and its second result is the index in content just past the last block extracted, so that content[end_pos:] is the remaining body.", "quantifier": "every content and every requested number of optional and required arguments", "why_tests_cant": "Combinations of optional/required blocks and malformed tails are unbounded.", "anchors": ["latex2json/utils/tex_utils.py:extract_args", "latex2json/parser/handlers/environment.py:EnvironmentHandler._handle_environment"]}
{"id": "C06", "title": "Delimited argument lists follow the requested signature", "statement": "extract_delimited_args(content, pattern) returns at most one result per delimiter in the pattern, in order; a required argument is never None, an optional argument that is absent is None, every non-None result is a balanced block read left to right from content, and the returned position never exceeds the length of content.", "quantifier": "every content and every pattern over '{' and '['", "why_tests_cant": "Unbounded signatures and inputs.", "anchors": ["latex2json/utils/tex_utils.py:extract_delimited_args"]}
{"id": "C07", "title": "Comment stripping removes every comment and nothing else", "statement": "strip_latex_comments returns, for each input line, the part before the first percent sign preceded by an even number of backslashes, with trailing whitespace removed; no line of the output contains an unescaped percent sign, escaped percent signs survive, and the number of lines is unchanged. Applying it a second time changes nothing on output that has no trailing blank line.", "quantifier": "every text", "why_tests_cant": "Every arrangement of lines, backslash runs and percent signs.", "anchors": ["latex2json/utils/tex_utils.py:strip_latex_comments", "latex2json/utils/tex_utils.py:is_escaped"]}
{"id": "C08", "title": "Macro argument substitution is positional, single pass and level-aware", "statement": "substitute_args(definition, args) replaces each unescaped parameter token with the minimal number of hashes occurring in the definition by the corresponding argument (1-based), leaves every other character, every escaped \\# and every parameter with more hashes or with an index beyond the arguments unchanged, never rescans substituted text, and is the identity when there are no arguments or no parameter tokens.", "quantifier": "every definition string and argument list", "why_tests_cant": "Arguments may themselves contain parameter-like text; definitions are unbounded.", "anchors": ["latex2json/utils/tex_utils.py:substitute_args", "latex2json/utils/tex_utils.py:check_string_has_hash_number"]}
{"id": "C09", "title": "Begin/end matching respects nesting of the same pattern", "statement": "extract_nested_content_pattern(text, begin, end) returns the first begin match and the end match that brings the nesting depth of begin/end matches back to zero, with the content strictly between them; it terminates and returns (-1,-1,'') exactly when there is no begin match or no such end match.", "quantifier": "every text and every pair of matchers returning non-empty matches", "why_tests_cant": "Nesting depth and input length unbounded.", "anchors": ["latex2json/utils/tex_utils.py:extract_nested_content_pattern", "latex2json/utils/tex_utils.py:find_matching_env_block"]}
{"id": "C10", "title": "Pattern substitution is a single left-to-right pass", "statement": "For one pattern, substitute_patterns copies unmatched text verbatim, replaces each match once with the handler's output, resumes right after the replacement (replacement text is never rescanned) and terminates whenever the handler consumes at least one character per match.", "quantifier": "every text, matcher and handler", "why_tests_cant": "Handlers are arbitrary functions; texts unbounded.", "anchors": ["latex2json/utils/tex_utils.py:substitute_patterns"]}
{"id": "C11", "title": "Roman numerals denote their number", "statement": "int_to_roman(n) terminates for every positive n, its value under the usual subtractive reading is n, hence distinct numbers get distinct numerals.", "quantifier": "every positive integer", "why_tests_cant": "Infinite domain; tests check a few values.", "anchors": ["latex2json/utils/conversions.py:int_to_roman"]}
{"id": "C12", "title": "Equations, tables, figures and algorithms are numbered 1..n in document order", "statement": "In the output of TokenBuilder.build-style numbering, the numbered tokens of each of the four kinds, read in document (pre-)order, carry exactly the numberings '1','2',...,'n'; tokens of those kinds not flagged numbered carry no number; no other token is given a number from those counters.", "quantifier": "every token forest", "why_tests_cant": "Forests of any shape, depth and interleaving of kinds.", "anchors": ["latex2json/structure/builder.py:TokenBuilder._assign_numberings"]}
{"id": "C13", "title": "Section numbers are unique and hierarchical", "statement": "Among numbered sections of levels 1 to 3 in a document body, no two sections receive the same number, and a section's number extends the number of the enclosing lower-level section.", "quantifier": "every token sequence", "why_tests_cant": "Uniqueness over arbitrary sequences of levels and starred sections.", "anchors": ["latex2json/structure/builder.py:TokenBuilder._assign_section_number"]}
{"id": "C14", "title": "Section tree nesting", "statement": "After organising, every section nested (directly) inside another section has a strictly greater level, and content follows the section heading it came after.", "quantifier": "every flat token sequence", "why_tests_cant": "Arbitrary sequences of headings.", "anchors": ["latex2json/structure/builder.py:TokenBuilder._recursive_organize", "latex2json/structure/builder.py:TokenBuilder._manage_stack"]}
{"id": "C15", "title": "Organising loses no content and preserves document order", "statement": "Flattening the organised tree of a flat token sequence (no appendix/bibliography markers) in preorder gives back exactly the input sequence.", "quantifier": "every flat token sequence", "why_tests_cant": "Arbitrary sequences of headings, paragraphs and other tokens.", "anchors": ["latex2json/structure/builder.py:TokenBuilder.organize_content"]}
{"id": "C16", "title": "Theorem-like environments get distinct numbers", "statement": "Numbered theorem-like environments in one document receive pairwise distinct numbers of the form section.counter.", "quantifier": "every token sequence", "why_tests_cant": "Needs all interleavings of sections and environments.", "anchors": ["latex2json/structure/builder.py:TokenBuilder._assign_numberings"]}
{"id": "C17", "title": "Adjacent text merging is canonical", "statement": "After text concatenation no two adjacent text tokens with equal styles remain at a concatenated level, non-text tokens are kept in order, merged text is the concatenation of the originals up to one inserted space between neighbours, and running it again changes nothing.", "quantifier": "every token list", "why_tests_cant": "Lists of arbitrary length and style combinations.", "anchors": ["latex2json/structure/builder.py:TokenBuilder._concat_text_tokens", "latex2json/structure/builder.py:TokenBuilder._recursive_concat_text"]}
{"id": "C18", "title": "Building is repeatable and pure", "statement": "Building the same tokens twice with one builder, with any other builds in between, gives the same output, and does not change the caller's token list.", "quantifier": "every history of builds on one builder instance", "why_tests_cant": "Quantifies over call histories.", "anchors": ["latex2json/structure/builder.py:TokenBuilder.build", "latex2json/structure/builder.py:TokenBuilder.organize_content", "latex2json/structure/builder.py:TokenBuilder.clear"]}
{"id": "C19", "title": "List depth equals nesting depth", "statement": "Every list token in the built document has depth one more than the number of list tokens enclosing it.", "quantifier": "every token forest", "why_tests_cant": "Nesting depth unbounded.", "anchors": ["latex2json/structure/builder.py:TokenBuilder._recursive_organize"]}
{"id": "C20", "title": "Numbered headings of every level the parser emits can be built", "statement": "Building a document never fails because of the level of a numbered section heading the parser can emit (part = 0 ... subsubsubsection = 4).", "quantifier": "every token sequence", "why_tests_cant": "A failure needs a rare heading level; tests only use levels 1-3.", "anchors": ["latex2json/structure/builder.py:TokenBuilder._update_section_numbering", "latex2json/parser/handlers/content_command.py"]}
{"id": "C21", "title": "Token construction drops only unknown tokens and keeps order", "statement": "TokenFactory.create turns each dict of a known type into a token of that type with its content processed recursively in order, passes strings through, returns nothing for unknown types, and the built document's top level is the in-order sequence of the constructed tokens.", "quantifier": "every token tree", "why_tests_cant": "Arbitrary nesting of token kinds.", "anchors": ["latex2json/structure/token_factory.py:TokenFactory.create", "latex2json/structure/tokens/base.py"]}
{"id": "C22", "title": "Table rows and cells split only at top-level separators", "statement": "Splitting a table body at a separator cuts exactly at the occurrences that are unescaped and outside braces; re-joining the pieces with the separator yields the input up to trimming, so cell text is neither lost nor duplicated.", "quantifier": "every table body", "why_tests_cant": "Arbitrary nesting and escapes.", "anchors": ["latex2json/parser/handlers/tabular.py:split_latex_content"]}
{"id": "C23", "title": "Conditional branches are split at the matching \\else and \\fi", "statement": "For a balanced conditional body, the conditional handler returns the text before the matching \\else (or \\fi), the text of each \\elseif/\\else branch at nesting level zero and the position just past the matching \\fi; unbalanced bodies are reported as not handled (None, 0) rather than truncating text.", "quantifier": "every body with arbitrarily nested conditionals", "why_tests_cant": "Nesting depth unbounded.", "anchors": ["latex2json/parser/handlers/if_else_statements.py:extract_else_elseif_fi"]}
{"id": "C24", "title": "BibTeX entry scanning terminates and keeps every entry", "statement": "Field parsing of a BibTeX entry always terminates and every well-formed field is returned with its full (brace- or quote-delimited) value.", "quantifier": "every bibliography text", "why_tests_cant": "Termination over all malformed inputs.", "anchors": ["latex2json/parser/bib/bibtex_parser.py"]}
{"id": "C25", "title": "Bibliography keys are unique and first definition wins", "statement": "Merging several bibliography files keeps exactly one entry for each cite key, namely the first in reading order, and preserves the order of first appearance.", "quantifier": "every list of entries from every list of files", "why_tests_cant": "Arbitrary duplicates.", "anchors": ["latex2json/parser/bib/bib_parser.py", "latex2json/parser/tex_parser.py"]}
{"id": "C26", "title": "Bibliography file lookup order", "statement": "Looking up a bibliography path tries the path itself (if it has a bibliography extension), the path with .bbl and .bib, main.bbl and the other .bbl files of the directory, in this order, and reads the first that exists; an existing earlier candidate is never shadowed by a later one.", "quantifier": "every file-system state", "why_tests_cant": "Quantifies over all directory contents.", "anchors": ["latex2json/parser/bib/bib_parser.py:BibParser.parse_file"]}
{"id": "C27", "title": "Archives cannot write outside the extraction directory", "statement": "Extracting a zip or tar archive never creates a file whose resolved path lies outside the temporary extraction directory.", "quantifier": "every list of archive members (names, links) in every order", "why_tests_cant": "Adversarial archives; unbounded.", "anchors": ["latex2json/tex_file_extractor.py:TexFileExtractor"]}
{"id": "C28", "title": "Temporary directories are removed", "statement": "With cleanup enabled, processing an archive leaves no temporary directory behind, whether processing succeeds or fails at any step; without cleanup the returned directory exists until the caller cleans it up.", "quantifier": "every archive and every failure point", "why_tests_cant": "Needs every crash point.", "anchors": ["latex2json/tex_file_extractor.py", "latex2json/tex_reader.py:TexReader.process_compressed"]}
{"id": "C29", "title": "Main file selection is deterministic and complete", "statement": "find_main_tex_file returns the first readable file in walk order that looks like a main document, and raises FileNotFoundError only if there is none.", "quantifier": "every directory listing", "why_tests_cant": "Arbitrary listings including unreadable files.", "anchors": ["latex2json/tex_file_extractor.py:TexFileExtractor.find_main_tex_file"]}
{"id": "C30", "title": "Failures surface as the documented exceptions", "statement": "TexReader.process raises only FileNotFoundError for missing input or TexProcessingError for any other failure; it never returns a partial result after a failure.", "quantifier": "every failure point of the pipeline", "why_tests_cant": "Needs all failure points.", "anchors": ["latex2json/tex_reader.py:TexReader"]}
{"id": "C31", "title": "Documents do not leak state into each other", "statement": "Processing a document with a reader that has processed any other documents before, successfully or not, gives the same result as with a fresh reader.", "quantifier": "every history of processed documents", "why_tests_cant": "Quantifies over histories.", "anchors": ["latex2json/tex_reader.py:TexReader.process_file", "latex2json/parser/tex_parser.py:LatexParser.clear", "latex2json/parser/packages/boxes.py", "latex2json/parser/handlers/content_command.py"]}
{"id": "C32", "title": "Protected blocks are restored verbatim", "statement": "Preprocessing that hides verbatim (or math) blocks behind placeholders and later restores them yields the original blocks byte for byte in their original places.", "quantifier": "every text and every list of hidden blocks", "why_tests_cant": "Collision of user text with placeholders is not sampled by tests.", "anchors": ["latex2json/parser/tex_preprocessor.py", "latex2json/parser/handlers/legacy_formatting.py"]}
{"id": "C33", "title": "Whitespace normalisation is stable and preserves words and paragraph breaks", "statement": "normalize_whitespace_and_lines returns text with no two consecutive blanks, no leading or trailing whitespace, one newline per paragraph break, the same sequence of non-blank characters, and is idempotent up to turning paragraph breaks into single spaces.", "quantifier": "every text", "why_tests_cant": "Arbitrary whitespace arrangements.", "anchors": ["latex2json/utils/tex_utils.py:normalize_whitespace_and_lines"]}
{"id": "C34", "title": "Built-in commands cannot be redefined", "statement": "No sequence of document definitions changes the meaning of a whitelisted built-in command; for every other name the most recent definition is used.", "quantifier": "every history of definitions", "why_tests_cant": "Quantifies over histories.", "anchors": ["latex2json/parser/tex_parser.py", "latex2json/parser/handlers/command_processor.py", "latex2json/parser/patterns.py:WHITELISTED_COMMANDS"]}
{"id": "C35", "title": "Macro expansion always terminates", "statement": "Expanding user macros terminates for every set of definitions (reporting an error instead of looping).", "quantifier": "every set of (mutually recursive) definitions", "why_tests_cant": "Non-termination cannot be observed by a finite test.", "anchors": ["latex2json/parser/handlers/command_processor.py:CommandProcessor.expand_commands"]}
{"id": "C36", "title": "Text coalescing in the parser", "statement": "Adding tokens one by one never leaves two adjacent unstyled plain text tokens, never drops text and never records empty groups, environments or lists.", "quantifier": "every sequence of added tokens", "why_tests_cant": "Quantifies over sequences.", "anchors": ["latex2json/parser/tex_parser.py:LatexParser.add_token"]}
{"id": "C37", "title": "Labels attach to the element they follow", "statement": "A label is recorded on the current environment if there is one, else on the previous token if it can carry labels, else as a token of its own; no label is ever lost and existing labels are kept.", "quantifier": "every history of labels and tokens", "why_tests_cant": "Quantifies over sequences.", "anchors": ["latex2json/parser/tex_parser.py:LatexParser._handle_label"]}
{"id": "C38", "title": "Boolean flags behave like a map", "statement": "After any sequence of flag declarations and assignments, a conditional on a flag selects the branch of the value last assigned, false if only declared.", "quantifier": "every history of operations", "why_tests_cant": "Quantifies over histories.", "anchors": ["latex2json/parser/packages/etoolbox.py"]}
{"id": "C39", "title": "Key-value families behave like a map", "statement": "After any history of key definitions and settings, a setting triggers exactly the latest definition of that key in that family with the given value.", "quantifier": "every history", "why_tests_cant": "Quantifies over histories.", "anchors": ["latex2json/parser/packages/keyval.py"]}
{"id": "C40", "title": "Saved boxes replay what was saved last", "statement": "Using a box returns the content most recently saved under that name and nothing for a name never saved since the last clear.", "quantifier": "every history of save/use/clear", "why_tests_cant": "Quantifies over histories.", "anchors": ["latex2json/parser/packages/boxes.py"]}
{"id": "C41", "title": "Each style file is read at most once", "statement": "Whatever the (possibly cyclic) inclusion graph, each style/class file is parsed at most once per document and loading terminates.", "quantifier": "every inclusion graph", "why_tests_cant": "Cyclic graphs of any size.", "anchors": ["latex2json/parser/sty_parser.py"]}
{"id": "C42", "title": "User environments expand like their definition", "statement": "Expanding a user-defined environment yields begin-code, body and end-code in that order with parameters substituted, using the declared default for a missing optional argument; text outside user environments is unchanged.", "quantifier": "every definition and use", "why_tests_cant": "Unbounded nesting and definitions.", "anchors": ["latex2json/parser/handlers/environment.py", "latex2json/parser/handlers/command_processor.py"]}
{"id": "C43", "title": "Input file resolution", "statement": "Reading an input path uses the exact path if it is a regular file, otherwise the path with the default extension (unless it already ends with it), and fails with FileNotFoundError exactly when neither is a regular file.", "quantifier": "every file-system state", "why_tests_cant": "Quantifies over file systems.", "anchors": ["latex2json/utils/tex_utils.py:read_tex_file_content"]}
{"id": "C44", "title": "Repeated optional references inside tables are numbered consistently", "statement": "Flattening a cell's non-text tokens replaces them by placeholders numbered 1..n in order and records each token under its own placeholder, so that every token can be recovered.", "quantifier": "every cell token list", "why_tests_cant": "Arbitrary lists.", "anchors": ["latex2json/parser/handlers/tabular.py:flatten_tokens"]}
{"id": "C45", "title": "Parsing terminates on every input", "statement": "LatexParser.parse returns on every input string, in particular on malformed input with unclosed groups or environments.", "quantifier": "every input string", "why_tests_cant": "Non-termination cannot be observed by a finite test, and the inputs are unbounded.", "anchors": ["latex2json/parser/tex_parser.py:LatexParser.parse", "latex2json/parser/handlers/environment.py:BaseEnvironmentHandler.try_match_group", "latex2json/parser/packages/tikz_pgf.py"]}
{"id": "C46", "title": "Headings keep their title, level and numbering", "statement": "Parsing a heading command (\\part, \\chapter, \\section, \\paragraph with any number of sub prefixes, starred or not, with or without a short title) gives one section or paragraph token whose title is the argument, whose level is the depth of the command and whose numbered flag is false exactly if it is starred; parsing goes on right behind the closing brace.", "quantifier": "every heading command, every number of subs, every blank text before the brace, every title with matching braces, every following text", "why_tests_cant": "Titles are arbitrary nested LaTeX and the sub prefix repeats without bound.", "anchors": ["latex2json/parser/handlers/content_command.py:ContentCommandHandler.handle", "latex2json/parser/handlers/content_command.py:ContentCommandHandler._create_token", "latex2json/parser/handlers/content_command.py:RAW_PATTERNS"]}
{"id": "C47", "title": "Citations, references and links keep their keys, notes and addresses in order", "statement": "A citation command gives one citation token with exactly the keys of its argument, trimmed and in order, and its notes as title; \\ref and relatives, \\cref, \\hyperref, \\href, \\url and \\doi give a reference or url token with the keys, address and text written; \\citetalias and \\citepalias are titled with the last \\defcitealias of the key.", "quantifier": "every such command, every list of keys, all notes, all blanks, every following text", "why_tests_cant": "Key lists, notes and addresses are arbitrary texts of any length.", "anchors": ["latex2json/parser/handlers/content_command.py:ContentCommandHandler.handle", "latex2json/parser/handlers/content_command.py:ContentCommandHandler._create_token"]}
{"id": "C48", "title": "The content command handler never raises and always moves on", "statement": "Whenever ContentCommandHandler.can_handle accepts a text, handle returns without exception a position after its start and not after its end.", "quantifier": "every text", "why_tests_cant": "All texts, in particular malformed ones; an exception here loses the whole document.", "anchors": ["latex2json/parser/handlers/content_command.py:ContentCommandHandler.handle", "latex2json/parser/handlers/content_command.py:ContentCommandHandler.can_handle"]}
{"id": "C49", "title": "A table is read as its rows and cells, with their spans", "statement": "The cells of a parsed table are the texts written between & and \\\\ outside braces, in order and trimmed; \\multicolumn and \\multirow give the content with the two numbers; only an empty first and last row disappear.", "quantifier": "every table: any number of rows, any cells, all blanks, all spans", "why_tests_cant": "Tables have any size, and cells are arbitrary texts with braces and commands.", "anchors": ["latex2json/parser/handlers/tabular.py:TabularHandler.parse_tabular", "latex2json/parser/handlers/tabular.py:split_latex_content"]}
{"id": "C50", "title": "Spanning cells taken out of a table before processing are put back unchanged", "statement": "extract_table_structures replaces spanning and multi-line cells by references; putting them back gives the text of the table again.", "quantifier": "every table text: any number of such cells, in any nesting", "why_tests_cant": "The references are found by string replacement in arbitrary text, in an order fixed by the kinds of cells.", "anchors": ["latex2json/parser/handlers/tabular.py:extract_table_structures", "latex2json/parser/handlers/tabular.py:TabularHandler.handle"]}
{"id": "C51", "title": "A use of a user-defined command is replaced by its definition with the arguments put in", "statement": "After \\newcommand{\\n}[k][d]{body} (or \\def with parameter text), a use of \\n is replaced by the body with each #i replaced by the i-th argument: the one given, the declared default for an optional one not given, nothing for another missing one. Exactly the use is consumed. In formulas the replacement is put in braces when it would run together with its neighbours, and never changes otherwise.", "quantifier": "every history of definitions, every body, number of parameters, defaults, arguments and following text", "why_tests_cant": "Bodies, arguments and the text around a use are arbitrary, and the definition in force depends on the whole history.", "anchors": ["latex2json/parser/handlers/command_processor.py:CommandProcessor.process_newcommand", "latex2json/parser/handlers/command_processor.py:CommandProcessor.process_newdef", "latex2json/parser/handlers/command_processor.py:CommandProcessor.handle", "latex2json/parser/handlers/command_processor.py:should_wrap_math_mode_arg"]}
{"id": "C52", "title": "A formula becomes one equation token with its text, labels and numbering", "statement": "EquationHandler.handle at the start of a formula ($…$, $$…$$, \\[…\\], \\(…\\), or one of nine environments, starred or not) returns one token: its content is the text between the delimiters, trimmed, without its \\label commands, expanded, cleaned of formatting, with ___PLACEHOLDER_i___ in place of the i-th reference, citation or picture, whose tokens are listed in order; display, align and numbered say what kind of formula it is; labels are the labels in order; exactly the formula is consumed. The order in which the set of environments is visited makes no difference.", "quantifier": "every formula and every text behind it, any number of labels and commands in it, every state of the boxes and aliases, every hash seed", "why_tests_cant": "The text of a formula is arbitrary and passes through five rewriting steps that search it.", "anchors": ["latex2json/parser/handlers/equation.py:EquationHandler.handle", "latex2json/parser/handlers/equation.py:EquationHandler._handle_labels", "latex2json/parser/handlers/equation.py:EquationHandler._extract_contentcommands_as_placeholders", "latex2json/parser/handlers/content_command.py:ContentCommandHandler.search"]}
{"id": "C53", "title": "Cleaning up a formula ends", "statement": "The rewriting steps on a formula (\\name…\\endname pairs to environments, removal of formatting and boxes) end for every formula.", "quantifier": "every text, every state of the boxes, every formatting handler whose answers are shorter than what they replace", "why_tests_cant": "Termination: the loops run while something is found, and the replaced text is searched again.", "anchors": ["latex2json/parser/handlers/equation.py:EquationHandler._strip_out_formatting", "latex2json/parser/handlers/environment.py:convert_any_env_pairs_to_begin_end"]}
{"id": "C54", "title": "Pictures, notes, captions, titles and included files keep path, page, mark and text", "statement": "\\includegraphics and \\includepdf give one token with the path and the page or pages of the options; \\footnote, \\footnotetext, \\caption, \\subcaption, \\captionof, \\title, \\abstract, \\keywords, \\input, \\include, \\bibliography and \\addbibresource give one token with the text of the argument; \\footnotemark gives its mark, * if it has none; \\appendix gives a marker; bookmarks and \\graphicspath show nothing. Exactly the command with its arguments is consumed.", "quantifier": "every such command, starred or not, all blanks, every option list, every page number and range, every argument with matching braces, every following text", "why_tests_cant": "Options and arguments are arbitrary texts; page numbers are unbounded.", "anchors": ["latex2json/parser/handlers/content_command.py:ContentCommandHandler.handle", "latex2json/parser/handlers/content_command.py:ContentCommandHandler._create_token", "latex2json/parser/handlers/content_command.py:RAW_PATTERNS"]}
{"id": "C55", "title": "Environments, groups and pairs give one token of the right type with their whole content", "statement": "\\begin{name}…\\end{name} gives one token: the type of the environment, its name or the title declared for it with \\newtheorem, whether it is numbered, the optional argument as the title of a theorem, the arguments in braces, and the rest of the body. \\begin{comment} gives nothing. \\begingroup…\\endgroup and \\bgroup…\\egroup give a group; \\name…\\endname gives the token of the environment. Exactly the environment is consumed. A theorem name goes by the title declared last.", "quantifier": "every environment name of the tables and every other name, every well-nested body, every title and list of arguments with matching brackets, every history of \\newtheorem declarations, every following text", "why_tests_cant": "Bodies nest without bound, names and declarations are arbitrary.", "anchors": ["latex2json/parser/handlers/environment.py:BaseEnvironmentHandler.handle", "latex2json/parser/handlers/environment.py:BaseEnvironmentHandler._handle_environment", "latex2json/parser/handlers/environment.py:BaseEnvironmentHandler.try_match_env", "latex2json/parser/handlers/environment.py:BaseEnvironmentHandler.try_match_group", "latex2json/parser/handlers/new_definition.py:NewDefinitionHandler._handle_newtheorem", "latex2json/parser/tex_parser.py:LatexParser._process_new_definition_token"]}
{"id": "C56", "title": "Every list item gives one token with its title and its whole body, inner lists included", "statement": "In the text of a list each \\item gives one token: its optional title and its trimmed body, up to the next \\item of the same list. Environments and groups in the body, with whatever items they contain, belong to the body. The items are read in order, nothing is left over or read twice; an empty item gives nothing.", "quantifier": "every number of items, every title without ], every body made of text and of closed environments and groups of any content and number", "why_tests_cant": "The number of items and the depth of inner lists are unbounded.", "anchors": ["latex2json/parser/handlers/item.py:ItemHandler.handle", "latex2json/parser/handlers/environment.py:find_pattern_while_skipping_nested_envs", "latex2json/parser/handlers/environment.py:BaseEnvironmentHandler.try_handle"]}
{"id": "C57", "title": "Styled text gets exactly the styles of the commands around it", "statement": "A styling command with an argument in braces (\\textbf, \\emph, \\texttt, ... 27 commands) gives the tokens of its argument with the style of the command in front of theirs; commands one in the other give one text with all styles, the outermost first, each once. An empty argument gives nothing, and without braces only the next character is styled. \\textcolor adds the colour with its model as a style, \\frac gives 'a / b' on one line, \\texorpdfstring its second argument, \\citetext its argument, \\romannumeral the numeral, \\subfloat its caption and content, \\twocolumn its argument; commands that choose a font give nothing. No command swallows text behind it and none raises an exception.", "quantifier": "every styling command, every balanced argument, every depth of commands one in the other, every text behind, every result of the parser on the argument", "why_tests_cant": "Arguments, depths and the text behind a command are unbounded.", "anchors": ["latex2json/parser/handlers/text_formatting.py:TextFormattingHandler", "latex2json/utils/tex_utils.py:strip_latex_newlines", "latex2json/utils/tex_utils.py:flatten_group_token"]}
{"id": "C58", "title": "A font, size or colour switch styles exactly the text it holds for", "statement": "A switch ({\\bf ...}, \\large, \\color{red}, ... 39 names and colours) is rewritten to the command for its style around the text from the switch to the next switch of the same kind (font, size, colour), the end of the group it stands in, or the end of everything, whichever comes first; switches inside groups or environments of that text do not end it. The same switch once more is removed. A switch of another kind at the end of the text is kept behind it. With an argument in braces it is the command with that argument. \\normalcolor gives nothing. The text is not changed, nothing else is swallowed and no exception is raised.", "quantifier": "every switch, every text of pieces, groups and environments, every following switch and text behind the group", "why_tests_cant": "Texts, groups and environments are unbounded, and so are their combinations.", "anchors": ["latex2json/parser/handlers/legacy_formatting.py:LegacyFormattingHandler.handle", "latex2json/parser/handlers/environment.py:find_pattern_while_skipping_nested_envs"]}
{"id": "C59", "title": "Code is given verbatim", "statement": "A verbatim environment gives a code token with the text up to its first \\end{verbatim}; a listing (lstlisting) the same, with its options as title; \\verb with a delimiter gives the text between the two delimiters, in one line, as inline code. The text is verbatim up to blanks around it: nothing in it is interpreted. Exactly this text is used up, and what stands behind is untouched. Conversely every code token stands for code at the start of the text, and an environment without an end is no code.", "quantifier": "every text of code, every delimiter, every text behind", "why_tests_cant": "Code can be any text, with anything behind it.", "anchors": ["latex2json/parser/handlers/code_block.py:CodeBlockHandler.handle"]}
{"id": "C60", "title": "Authors are separated at the words \\and, and only there", "statement": "\\author{...} (in any case, with or without a short form in brackets) gives one author for every text between the words \\and (in any case; \\andrew is no such word), trimmed, without the empty ones, each parsed; every text has exactly one such list, and all of it stands in the argument. \\email, \\affil, \\affiliation and \\address give a token of their type with the parsed argument, \\thanks a footnote with its argument. Exactly the command and its arguments are used up, and no exception is raised.", "quantifier": "every balanced argument, every spelling of the commands in upper and lower case, every optional argument and text behind, every result of the parser", "why_tests_cant": "Arguments are unbounded and so is the number of authors.", "anchors": ["latex2json/parser/handlers/author.py:AuthorHandler.handle", "latex2json/parser/handlers/author.py:AuthorHandler._parse_author_content"]}
{"id": "C61", "title": "A definition is read as it is written", "statement": "Where a text begins with a definition (\\newcommand and its relatives, \\let, \\def and its relatives also with \\csname, \\@namedef, \\newtheorem, \\newif, counters, lengths, registers, colours, fonts, alphabets, paired delimiters, float and reference names, theorem styles, column types), reading gives exactly the name, parameters, defaults and body that are written, and uses up exactly the text of the definition; leading \\expandafter and \\noexpand are skipped. Reading never goes beyond the text, and a definition that is found uses up something. A \\newcommand that is read and registered makes later uses stand for its body with the arguments put in.", "quantifier": "every name, parameter text, default, balanced body and white space between them, every text behind", "why_tests_cant": "Names, bodies and what follows are unbounded; a pattern may stop too early or too late for some of them.", "anchors": ["latex2json/parser/handlers/new_definition.py:NewDefinitionHandler.handle", "latex2json/parser/handlers/new_definition.py:NewDefinitionHandler._handle_def_prefix"]}
{"id": "C62", "title": "Layout commands vanish and take exactly their arguments with them", "statement": "Where a text begins with a layout command (page and line breaks, spacing, lengths, colours, page styles, table-of-contents commands, boxes for formulas, numbers, comments and the like), reading replaces exactly the command and its arguments by what it stands for: nothing, a newline, a blank, the text inside \\ensuremath, or a formatted number. The text behind is untouched. Reading never goes beyond the text, uses up at least one character, and never makes the text longer (for a number formatter that does not), so that removing layout commands from a formula ends.", "quantifier": "every command word of the tables, every argument that is balanced, every white space between, every text behind", "why_tests_cant": "The arguments and the text behind are unbounded, and an alternative of the large pattern that is tried earlier could take the command for some continuation.", "anchors": ["latex2json/parser/handlers/formatting.py:FormattingHandler.handle", "latex2json/parser/handlers/formatting.py:RAW_PATTERNS", "latex2json/parser/handlers/equation.py:EquationHandler._strip_out_formatting"]}
{"id": "C63", "title": "A conditional is taken whole and split at its own branches", "statement": "Where a text begins with \\ifNAME (declared with \\newif, or any other plain conditional such as \\iftrue), reading takes everything to the \\fi that closes this conditional, whatever conditionals are nested inside, and gives the text before and behind its own \\else as the two branches, exchanged for \\iffalse, with the name as condition. \\ifx\\a\\b is read the same way. \\ifthenelse, \\@ifundefined, \\@ifclassloaded, \\@ifpackageloaded and \\@ifstar take exactly their groups. A conditional that nothing closes is left alone. A conditional that is taken is not empty and ends inside the text.", "quantifier": "every list of declared names, every name, every nesting of conditionals in the branches, every balanced group, every text behind", "why_tests_cant": "Nesting depth, declared names and texts are unbounded, and the pattern for the start of a conditional is a growing alternation whose earlier parts could match instead.", "anchors": ["latex2json/parser/handlers/if_else_statements.py:IfElseBlockHandler.handle", "latex2json/parser/handlers/if_else_statements.py:IfElseBlockHandler.process_newif", "latex2json/parser/handlers/if_else_statements.py:extract_else_elseif_fi", "latex2json/parser/handlers/if_else_statements.py:try_handle_ifthenelse"]}
{"id": "C64", "title": "Preprocessing a document does what reading it from front to back says", "statement": "Preprocessing takes away comments and everything up to the document class, and then, from front to back: definitions without arguments disappear and count from where they stand; definitions with arguments stay where they are; uses of defined commands are replaced by what the last definition before them says, and the replacement is read on; switches, counters and pairs of delimiters that were declared are carried out; conditionals leave the branch that is chosen; layout commands leave nothing, a blank or a line break; quotation marks become plain ones; packages bring in what their files define; formulas, escaped characters, unknown commands and all other text stay as written. The definitions met are reported in order, and at the end only blanks outside program listings are changed.", "quantifier": "every document that can be read in this way (in any order and nesting of these parts, of any length), every starting state that comes from some history of definitions, every order of the formula patterns, every enough number of steps", "why_tests_cant": "Documents, histories of definitions and expansions are unbounded, each step rewrites the text and reads on at the same place, and at each place eight handlers compete, each with a table of patterns.", "anchors": ["latex2json/parser/tex_preprocessor.py:LatexPreprocessor.preprocess", "latex2json/parser/tex_preprocessor.py:LatexPreprocessor._process_definitions_and_expand", "latex2json/parser/tex_preprocessor.py:LatexPreprocessor._process_new_definition_token", "latex2json/parser/tex_preprocessor.py:LatexPreprocessor._check_documentclass", "latex2json/parser/tex_preprocessor.py:LatexPreprocessor._check_usepackage"]}
{"id": "C65", "title": "A document is parsed to the tokens that reading it from front to back says", "statement": "Parsing takes away comments and then reads the text from front to back: running text is converted and joined with the text before it, with a blank between if there was one; groups are read on their own and their tokens added; line breaks become newlines; a label is given to the innermost environment or heading it stands in or after, or else to the token before it; headings, footnotes, captions, titles, citations, references and links become tokens whose own texts are read in the same way; environments and list items become tokens with their type, name, number, title, arguments and body, the body and title being read in the same way; and a command that nothing is known about is kept, with its argument. The tokens come in the order of the text, numbered in the order in which they are made, and parsing ends.", "quantifier": "every document that can be read in this way (in any order and nesting of these parts, of any length and depth), every state of the parser that comes from some history of definitions, every conversion of commands for characters, every order of the formula patterns, every enough number of steps", "why_tests_cant": "Documents nest without bound, each part calls the whole parser again on its texts, and at each place twelve handlers, the definitions, conditionals, switches and four more patterns compete; what a label is given to depends on everything read before it.", "anchors": ["latex2json/parser/tex_parser.py:LatexParser.parse", "latex2json/parser/tex_parser.py:LatexParser._process_token", "latex2json/parser/tex_parser.py:LatexParser.add_token", "latex2json/parser/tex_parser.py:LatexParser._check_handlers", "latex2json/parser/tex_parser.py:LatexParser._handle_label", "latex2json/parser/tex_parser.py:LatexParser._check_unknown_command"]}
{"id": "C66", "title": "A \\bibitem bibliography becomes one entry per item", "statement": "Each \\bibitem with a text becomes one entry, in the order of the items, with the key between its braces, the label between its brackets (none if there is none or it is empty) and the text up to the next item without blanks at its ends, without \\newblock, and with \\bysame replaced by the author of the entry before (the text up to its first comma). Items without text are left out. In a document with a bibliography environment only the first such environment counts, whatever stands around it. A bibliography with \\bibitems is read in this way and not as BibTeX.", "quantifier": "every list of items with any labels, keys and texts, every text before the first item and around the environment, every environment name ending in bibliography", "why_tests_cant": "The texts are unbounded and are delimited by lazy patterns with a look-ahead and a label that may itself contain brackets; what one item becomes depends on the items before it.", "anchors": ["latex2json/parser/bib/bibitem_parser.py:BibItemParser.parse", "latex2json/parser/bib/bibitem_parser.py:BibItemParser.can_handle", "latex2json/parser/bib/bib_parser.py:BibParser.parse"]}
{"id": "C67", "title": "An accent goes onto the first character of its argument and nothing else changes", "statement": "An accent command, written with a group or a single character as its argument, becomes the argument (without blanks at its ends) with the Unicode combining mark of that accent composed onto its first character; the text consumed is exactly the command with its argument. Converting all accents of a text ends, replaces every accent, whichever commands are used and however they are mixed, and leaves everything else as it is. A longer command whose name begins like an accent (\\cite, \\check) is not taken for the shorter one.", "quantifier": "every accent command of the table, every argument (a balanced group of any length and nesting, or any character other than a blank, brace or backslash), every text before and after, any number of accents in a text", "why_tests_cant": "There are 26 patterns tried one after the other, each as a pass over the whole text with the results of the passes before; some are prefixes of others, and the arguments and texts are unbounded.", "anchors": ["latex2json/parser/handlers/diacritics.py:convert_tex_diacritics", "latex2json/parser/handlers/diacritics.py:parse_diacritic_match", "latex2json/parser/handlers/diacritics.py:apply_accent", "latex2json/parser/handlers/diacritics.py:DiacriticsHandler.handle"]}
{"id": "C68", "title": "A command for a character becomes that character, and nothing else changes", "statement": "When a text is converted to Unicode, every command of the package's symbol table that is written in it becomes the character(s) the table gives for it, with an empty pair of braces after a command name left out; a command name is not found inside a longer one (\\int in \\interval); every escape \\uXXXX with 4 to 6 hexadecimal digits becomes the character with that number; everything else stays as it is, and the order in which the categories of commands are replaced does not show.", "quantifier": "every text, any number of commands, names, escapes and plain text in any order; every table of ASCII commands, in particular the 2677 entries of the package", "why_tests_cant": "The conversion is six passes over the text, each over the results of the earlier ones and each an alternation of up to two thousand patterns of which some are prefixes of others; texts are unbounded and each of the 2677 entries can stand next to any other.", "anchors": ["latex2json/latex_maps/latex_unicode_converter.py:LatexToUnicodeConverter.convert", "latex2json/latex_maps/latex_unicode_converter.py:LatexToUnicodeConverter._init_latex2unicode", "latex2json/latex_maps/_latex2unicode_map.py:latex2unicode"]}
{"id": "C69", "title": "Pictures become diagrams, and settings, titles and loops of packages are consumed exactly", "statement": "A tikzpicture, picture or pgfpicture gives one diagram with the name of the environment and its content, even if pictures are nested in it; an overpic gives the graphic named in its argument, whatever its options and overlay; \\usetikzlibrary and the like, \\pgfplotsset, the titlesec commands with their optional and mandatory arguments, \\forloop and \\foreach give nothing. In each case exactly the text of the construct is consumed: what follows is neither lost nor is part of the construct left in the text.", "quantifier": "every body of a picture in which environments of that name are nested properly, every option and overlay, every balanced argument with any blanks between arguments, every text behind the construct", "why_tests_cant": "Bodies and arguments are unbounded, the end of a construct is found by counting environments or delimiters or by a greedy pattern over the rest of the line, and depends on the text that follows.", "anchors": ["latex2json/parser/packages/tikz_pgf.py:TikzPGFHandler.handle", "latex2json/parser/packages/overpic.py:OverpicHandler.handle", "latex2json/parser/packages/titlesec.py:TitlesecHandler.handle", "latex2json/parser/handlers/for_loop_statements.py:ForLoopHandler.handle"]}
{"id": "C70", "title": "A compiled bibliography (.bbl of biblatex) is read entry by entry", "statement": "Parsing a bibliography compiled by biblatex gives its entries in order, each with the key and type it has in the file, its authors as family name and initial joined by ` and `, every other field with the last value given for it (journaltitle under the name journal, the internal label fields left out), and its eprint number; \\bibinitperiod and \\bibrangedash are replaced by a period and two dashes.", "quantifier": "every compiled bibliography whose entries have plain keys and balanced values, with any number of entries, authors and fields and any text between them", "why_tests_cant": "The number of entries, authors and fields and the nesting of the values are unbounded, and the entries pass through two parsers: one that rewrites them as BibTeX and one that reads that.", "anchors": ["latex2json/parser/bib/compiled_bibtex.py:process_compiled_bibtex_to_bibtex", "latex2json/parser/bib/compiled_bibtex.py:parse_compiled_bibtex_entry", "latex2json/parser/bib/bibtex_parser.py:BibTexParser.parse"]}
{"id": "C71", "title": "A tabular environment becomes one table token", "statement": "For every tabular, tabularx, tabulary or longtable environment, starred or not, with or without a position, the handler consumes exactly the environment and yields one token with its name, its column specification (the last argument before the body) and its rows and cells as written: a cell holds its texts, formulas and other objects in order, a \\multicolumn, \\multirow or \\makecell keeps its spans and its content, blank rows and empty first and last rows are dropped.", "quantifier": "every tabular environment, with any nesting of the same environment in it, any number of rows, cells and objects in a cell, any reader of formulas and of cells, and any text after it", "why_tests_cant": "The cells pass through four representations (taken-out spans, parser tokens, numbered references, split text); that nothing is mixed up or lost must hold for every number of rows, cells, spans and objects.", "anchors": ["latex2json/parser/handlers/tabular.py:TabularHandler.handle", "latex2json/parser/handlers/tabular.py:TabularHandler._clean_cell", "latex2json/parser/handlers/tabular.py:parse_tabular", "latex2json/parser/handlers/tabular.py:extract_table_structures"]}
{"id": "C72", "title": "The definitions of a preamble are found, in order, and nothing else", "statement": "For every file content, get_preamble returns exactly the uses of packages and the definitions (of any of the handled kinds) that stand between the class declaration and the first \\begin{document}, each as written, in their order, each followed by a newline; blocks between \\makeatletter and \\makeatother are kept whole; text, comments and other commands are left out. Whatever the content, what is returned consists of pieces of that part of the content, in order and apart from each other.", "quantifier": "every content: any number and order of texts, symbols, commands, uses of packages, blocks and definitions, with or without class declaration and document", "why_tests_cant": "What is given depends on every split of the text at the next command; that no definition is lost, doubled or cut must hold for every sequence of commands and texts.", "anchors": ["latex2json/parser/tex_preamble.py:LatexPreamble.get_preamble", "latex2json/parser/tex_preamble.py:LatexPreamble._preprocess_content"]}
{"id": "C73", "title": "Reading a file gives its text", "statement": "For every file in UTF-8, of any length and wherever its characters beyond ASCII are, if its first 10000 bytes look like ASCII or UTF-8 (or like nothing) read_file returns its text, with \\r\\n and \\r turned into \\n; a file that looks like another encoding known to Python is decoded with it; if that fails, the file is taken as UTF-8 and only what is not UTF-8 is replaced by U+FFFD, everything before the first damage being kept. It never raises UnicodeDecodeError.", "quantifier": "every sequence of bytes, every outcome of the detection, every set of codecs", "why_tests_cant": "What is detected depends on the first 10000 bytes only; that nothing behind them is lost must hold for files of every length, with the characters at every place.", "anchors": ["latex2json/utils/encoding.py:read_file", "latex2json/utils/encoding.py:detect_encoding"]}
{"id": "C74", "title": "has_comment_on_sameline tells whether a comment begins before the place", "statement": "has_comment_on_sameline(content, pos) is true exactly when on the line of pos, before it, there is a percent sign with an even number of backslashes right before it; percent signs on other lines, behind pos or escaped do not count.", "quantifier": "every text and every place in it", "why_tests_cant": "Lines, percent signs and runs of backslashes may come in any number and order before the place.", "anchors": ["latex2json/utils/tex_utils.py:has_comment_on_sameline"]}
{"id": "C75", "title": "Merging proofs puts every proof under its statement and loses nothing", "statement": "With merge_proof_environments switched on, every proof that stands right behind a theorem-like environment becomes the proof of that environment, wherever in the list they are; only proofs are merged, only under theorem-like environments; no token is lost, doubled or moved; and what a proof contains is numbered as it would be without merging.", "quantifier": "every list of tokens, every place in it, every name of the environments", "why_tests_cant": "Statements and proofs may follow each other in any number and order; the step over two tokens must not run out of step anywhere.", "anchors": ["latex2json/structure/builder.py:TokenBuilder._merge_proof_environments", "latex2json/structure/builder.py:is_nonproof_math_env", "latex2json/structure/builder.py:is_proof_env"]}
