# Formal model of latex2json in Lean 4 — design

## Conventions

* Python `str` is modelled as `List Char` (Unicode scalar values; lone surrogates, which Python
  strings may hold, are outside the model). Python indices are `Nat`; `-1` results are `Int` or `Option`.
* Python exceptions are values (`Except PyErr α` or `Option`).
* Mutation becomes returning the new state; loops become structural recursion, or recursion on a
  measure, or carry an explicit fuel argument together with a theorem that the fuel is never exhausted.
* Each model definition cites `file:lines` in `/repo`. Models live in `Verif/Model/*.lean`, helper
  lemmas in `Verif/Lemmas/*.lean`, small independent specifications in `Verif/Spec/*.lean`, and
  property theorems in `Verif/Props/Cxx.lean`, one file per property, with `example`s showing that
  the hypotheses are met by concrete, non-trivial inputs and that the model computes what the unit
  tests of the repository expect (these examples are tests, and are labelled so).

## Trusted base

* Lean 4.33.0's kernel, and the axioms `propext`, `Classical.choice`, `Quot.sound` (at most; many theorems
  use fewer). No axioms of our own, no compiled evaluation: concrete examples are checked by `decide +kernel`.
  Only core Lean is used, no Mathlib module is imported.
* The reading of the Python code into Lean (not mechanised): that is what the citations are for.
* The assumed behaviour of everything passed as a parameter (see the next section).

## What is modelled and what is not

Characters and strings. `\d`, `\w`, `str.lower`, `str.isdigit` are modelled on ASCII; `\s`/`str.strip` on all
Unicode blanks; `str.isalpha`/`isalnum` are parameters (arbitrary functions, with the assumption that they hold of
ASCII letters only where a theorem says so). `chr` of surrogates is outside the model.

Regular expressions. `Model/Regex.lean` is a backtracking matcher that returns matches in CPython's order. Two
simplifications: an iteration of a repetition must consume a character, and flags are encoded in the character classes
(IGNORECASE only where a model says so). Some patterns are hand-written deterministic scanners; each says so.

| part of the code | model | not modelled |
|---|---|---|
| utils/tex_utils.py | Delim, Args, Comments, SubstArgs, Nested, Whitespace, Files |   |
| structure/builder.py | Token, Builder | `merge_proof_environments=True` beyond Model/Proofs; tokens are values, not references; contents of appendices and tables are taken to be lists |
| structure/builder.py `_merge_proof_environments` | Proofs | one list; names are a function of the attributes, `lower` on ASCII |
| structure/token_factory.py | Factory | pydantic: content and title coercions as cited, scalar validation abstract |
| handlers/tabular.py | Tabular, TabularParse, TabularHandler | the processing function and the cell parser are arbitrary functions; `\d` on ASCII |
| parser/tex_preamble.py | Preamble | `get_preamble_from_file`, logging; an exception of a definition handler is `error` |
| utils/encoding.py | Encoding | chardet and the codecs other than UTF-8 and Latin-1 are parameters; opening and reading the file |
| handlers/if_else_statements.py | IfElse | matching of the individual `\if..` conditions beyond their patterns |
| parser/bib | Bib, Files, Compiled | |
| tex_reader.py, tex_file_extractor.py | Reader, Archive, Files | file systems are arbitrary functions, outcomes of steps arbitrary; tar `filter`, hard links and devices; `Path.exists` does not raise |
| tex_preprocessor.py | Preproc, Preprocess, Whitespace | logging; in Preproc verbatim patterns are arbitrary well-formed searchers |
| tex_parser.py `add_token`, `_handle_label`, main loop | AddToken, ParseLoop | the parts of the loop are arbitrary functions; negative positions are not followed |
| handlers/command_manager.py, command_processor.py, usage patterns of new_definition.py | Commands | reading a definition from text; unescaped names: only `.` is a metacharacter; `\b` as "no word character follows"; Unicode conversion and `\@ifstar` abstract |
| packages/etoolbox.py, keyval.py, boxes.py | Etoolbox, KeyVal, Boxes | saves inside a box's content |
| handlers/environment.py, item.py | Environment, EnvToken | `\w` and `lower` on ASCII |
| handlers/text_formatting.py | TextStyle | the parser is a parameter |
| handlers/legacy_formatting.py | Legacy | `\w` is ASCII; the rewriting loop of the parser around it is not followed |
| handlers/code_block.py | CodeBlock | |
| handlers/author.py | Author | the parser is a parameter; `last_thanks_token` (never read) is left out |
| handlers/new_definition.py | Definitions | patterns as `Re`; the usage patterns are in Commands; `\d` ASCII; `\futurelet` with `\csname` left out |
| handlers/formatting.py | Formatting | the whole table of patterns as `Re`; number formatting (utils) is a parameter |
| handlers/if_else_statements.py, the handler | Conditional | names declared by \\newif are taken literally in the pattern |
| tex_preprocessor.py, whole | Preprocess | files of packages and classes are a parameter; text behind the current position only |
| tex_parser.py, LatexParser.parse and what it calls | Parser | `current_str`, the log, included files, bibliographies and the actions of the boxes, of etoolbox and of tables are parameters or left out; the other packages are those of Model/Packages |
| packages/tikz_pgf.py, overpic.py, titlesec.py | Packages | |
| latex_maps/latex_unicode_converter.py, latex_maps/_latex2unicode_map.py | Symbols, SymbolTable | the table is generated by tools/symbols.py; a surrogate escape stays as written; str.isalpha on the last character of a key is that of ASCII, the table being ASCII |
| handlers/diacritics.py `apply_accent`, `convert_tex_diacritics` | Diacritics | `unicodedata.normalize` is a parameter |
| bib/bibitem_parser.py, bib/bib_parser.py `parse`, `preprocess` | BibItem | `\w` is ASCII; in replacement texts a backslash before a digit or `g` always raises |
| sty_parser.py | Sty | parsing of a file between two loads is an arbitrary finite program |
| flatten.py | Flatten | |
| handlers/content_command.py | Content | Unicode digits; `process_content_fn` (absent in the parser, the identity in the model) |
| handlers/equation.py | Equation | the formatting handler, boxes other than saved ones and `process_content_fn` are parameters; `\w` on ASCII |
| state of reader, parser, handlers | State | the processing of a document is an arbitrary function of the attributes |

Not modelled at all: logging, `chardet`, `unicodedata`, the OS; what `chardet` and `unicodedata` answer is a parameter.

## Plan, property by property (written before the proofs)

See `properties.jsonl` for the statements.

| id | modelled | how it is proved |
|----|----------|------------------|
| C01 | `is_escaped`, `find_matching_delimiter`, `extract_nested_content` on `List Char` | spec = a depth function on prefixes; induction on the scan |
| C02 | `extract_nested_content_sequence_blocks` | spec = inductive relation "blocks start here"; recursion on remaining length |
| C03 | `check_delimiter_balance` | iff with prefix-count specification |
| C04 | `find_delimiter_end`, `extract_equation_content` | scan invariant against brace-depth-with-floor specification |
| C05 | `extract_args` | violated by the code: negation by witness, `_partial` theorem for the cases where it holds |
| C06 | `extract_delimited_args` | recursion over the pattern |
| C07 | `strip_latex_comments`, `str.splitlines`, `str.rstrip` | per-line specification; lists |
| C08 | `substitute_args` with both regexes unfolded to scanners | independent tokenisation spec; `#0` defect by witness |
| C09 | `extract_nested_content_pattern` over an abstract matcher | depth function over match events |
| C10 | `substitute_patterns` over an abstract matcher/handler | relation "single pass rewriting" |
| C11 | `int_to_roman` | value function, recursion on n |
| C12-C16, C18-C20 | `TokenBuilder` on a rose-tree token type with its counters | state-passing recursion; preorder lists |
| C17 | `_concat_text_with_same_styles`, `_process_tokens` | list induction |
| C21 | `TokenFactory` | recursion on token trees |
| C22 | `split_latex_content` | scanner vs. position specification |
| C23 | `extract_else_elseif_fi` | event list scanner |
| C24 | bibtex field loop | fuel/measure; suffix-of-balanced lemma |
| C25 | dedupe in `_parse_bib_file` | list induction |
| C26 | `BibParser.parse_file` lookup over an abstract file system | case analysis stated as first-existing |
| C27 | archive member filter over path components | normalised path prefix; tar links: negation witness |
| C28, C30 | pipeline of steps that can each fail | case analysis over failure points |
| C29 | `find_main_tex_file` over abstract listing | list induction |
| C31 | parser/reader state with all clearable and class-level state | induction over histories; leak witnesses |
| C32 | placeholder replace/restore | `str.replace` model; collision witness |
| C33 | `normalize_whitespace_and_lines` with its regexes as scanners | list induction |
| C34, C35 | command registry; `_expand` rounds | histories; round bound; non-termination witness of the outer loop |
| C36, C37 | `add_token`, `_handle_label` | invariant over op lists |
| C38-C40 | etoolbox/keyval/box | refinement to a map |
| C41 | sty loading over an inclusion graph | visited-set measure |
| C42 | environment expansion | unfolding against C08 spec |
| C43 | `read_tex_file_content` | decision logic |
| C44 | `flatten_tokens` | list induction |
| C46 | content_command.py: all 29 patterns as regexes, `handle`, `_create_token` | dispatch lemma: a word selects the first pattern that accepts it; induction on the number of `sub`s |
| C47 | the same model; comma splitting | list induction, dispatch lemma |
| C48 | the same model | bounds of matches and of brace extraction; case analysis over the token kinds |
| C49 | `parse_tabular`: rows, cells, spans | table syntax as a datatype with a printer; parse of print by list induction |
| C50 | `extract_table_structures`, restoration loop | text as alternation of pieces and references; invariant of the three passes; `str.replace` |
| C51 | `process_newcommand`, `process_newdef`, `handle`, argument reading, `should_wrap_math_mode_arg` | on top of C34 (which entry answers); argument reader against the written use; `\def` pattern matched piece by piece; case split for braces in formulas |
| C52 | `EquationHandler.handle` and its helpers, `ContentCommandHandler.search` | tags and delimiters matched by position; labels by induction from the last one; cleaning against the relation `Cleans`; content commands against C47 |
| C53 | `_strip_out_formatting`, `convert_any_env_pairs_to_begin_end` | length measure, with the relation `Inserts` as the only way out; hangs by induction on the fuel |
| C54 | the model of content_command.py | the pattern a name selects (as C46, C47); `keyIn`: the first keyword with a value in the options |
| C55 | `EnvironmentHandler.handle`, `_handle_environment`, `try_match_env`, `try_match_group`, `\newtheorem` | tables as rows (`EnvRow`); environment search by C09, arguments by C05; groups and pairs by nesting of the two commands; declarations by induction on the history |
| C56 | `ItemHandler.handle`, `find_pattern_while_skipping_nested_envs` | induction on the parts of a body, then on the items; blocks by C55 |
| C57 | all of `TextFormattingHandler`, `strip_latex_newlines`, `flatten_group_token` | relational spec of styled tokens; induction on the depth of commands; gaps and words for the one-line text |
| C58 | all of `LegacyFormattingHandler.handle`, `find_pattern_while_skipping_nested_envs` | text as pieces, groups and environments; induction on them for the end of the scope; every match is characterised by a relational spec (`switch_iff`) |
| C59 | all of `CodeBlockHandler.handle` | patterns as scanners; both directions: written code is read (`C59_code`), tokens come from written code (`C59_sound`) |
| C60 | all of `AuthorHandler` | relational spec of the parts (`AndParts`), existence and uniqueness by induction; scanners agree with it |
| C61 | all of `NewDefinitionHandler` | each pattern is followed by `Eats`/`Dead` lemmas through its alternatives; bounds by minimal lengths of the patterns; composed with C51 |
| C62 | all of `FormattingHandler` | each word is located in the table by a computed position; all other alternatives are dead by a symbolic run (`Re.may`); bounds by minimal lengths |
| C63 | `IfElseBlockHandler.handle`, all patterns | the delimiters after a well nested text are those of what follows (induction on `CondText`), then C23; patterns by `Eats`/`Dead` |
| C64 | `preprocess`, `_process_definitions_and_expand` | induction on the reading `Becomes`; at each place the handlers before the right one are shown dead, tables of patterns by decided table lemmas; placeholders by C32, definitions by C34, C61, layout by C62, conditionals by C63, formulas by C52 |
| C65 | `parse`, `_process_token`, `add_token`, `_check_handlers`, `_check_remaining_patterns`, `_check_unknown_command`, `_handle_label` | induction on the reading `Reading`, one index for texts and tokens; at each place the handlers before the right one are shown dead by decided tables; contents by C46-C48, environments by C55, items by C56 |
| C66 | Model/BibItem: bibitem_parser.py and BibParser.parse, over the regex engine of Model/Regex, with the replacement texts of re.sub as a function that may raise. Spec/BibItem: items as written, the entries they stand for. | Lazy groups with look-ahead by `Eats.lazyAny`; replacement of a command by splitting at its uses; induction over the items. |
| C67 | Model/Diacritics: diacritics.py (patterns and handler in Model/Parser), normalize("NFC") as a parameter. Spec/Diacritics: the table of accents, how arguments are written, texts with accents. | Each pattern is dead on the uses of all other accents; induction over passes with the accents of earlier passes already replaced; C10 for the loop. |
| C68 | Model/Symbols and Model/SymbolTable (generated from _latex2unicode_map.py by tools/symbols.py): latex_unicode_converter.py. Spec/Symbols: when a command stands at a place, hexadecimal numbers, what a text becomes. | The state between two passes is a text in which the commands of earlier categories are already characters that are not ASCII; each pass keeps this relation, by induction over it. |
| C69 | Model/Packages: tikz_pgf.py, overpic.py, titlesec.py; for_loop_statements.py in Model/Parser. Spec/Packages: how pictures, arguments, title commands and settings are written. | C09 for environments, C01 for groups, induction over the arguments; the greedy pattern of \foreach by a lemma on repetitions whose continuation fails at all later places. |
| C70 | Model/Compiled: compiled_bibtex.py. Spec/Compiled: how entries, authors and fields are written, and what an entry says about a field. | Search lemmas for patterns that begin with a word, induction over entries, authors and fields; the written BibTeX is read by the lemmas of C24. |
| C71 | Model/TabularHandler: `TabularHandler.handle` as a whole. Spec/TabularEnv: how environments, arguments and cells with objects are written, and what a cell holds. | Environment search by C02, flattening and recovery by C44, rows and cells by C49, taken-out spans by C50. |
| C72 | Model/Preamble: `get_preamble`, `_preprocess_content`. Spec/Preamble: what a preamble consists of and which pieces are definitions. | The loop by induction over the reading; where the next command begins by the search for the delimiter; definitions by C61, the class and packages by C64g. |
| C73 | Model/Encoding: encoding.py, UTF-8 over the character decoder of Lean's library, universal newlines. Spec/Encoding: the bytes of a text, newlines, what is read from damaged UTF-8 (one U+FFFD for each longest beginning of a character). | Induction over the text; how characters of three and four bytes begin, by arithmetic on the code point; a byte beyond ASCII before an ASCII byte begins no character. |
| C74 | Model/Comments: `has_comment_on_sameline`. | The scan by induction over the line. |
| C75 | Model/Proofs: `_merge_proof_environments`, with `_recursive_organize` from Model/Builder. | Induction over the list, two tokens at a time. |
| C45 | main loop of `LatexParser.parse` over abstract parts | measure for the well-behaved case; stuck states as witnesses |

## Results

`MANIFEST.json` (generated by `tools/manifest.py` from `tools/claims.txt`) lists the theorems and what is missing for each
property. A property is `partial` in one of two ways: the code violates it, then the violation is a theorem
(`Cxx_violated*`) and the strongest restriction that holds is proved (`*_partial`); or a part of the code it speaks of
is abstract in the model.

Violations proved (each a theorem about the model, usually for a whole class of inputs):

* C05/C06 argument positions: relative to the wrong text with optional and required arguments together.
* C08 `#0` gives the last argument; a parameter after `\\\\` counts as escaped.
* C12/C19 numbered tokens and lists in table cells are not visited; C13/C16 two appendix marks, an appendix in a token,
  and unnumbered sections give equal numbers; C20 headings of level 0 and 4 raise KeyError.
* C21 an unknown token in a theorem raises; attributes of tables are lost.
* C22 escaped braces are counted; C23 an `\elsif` without `\else` loses its text, one after `\else` raises, an unclosed conditional
  is taken for a closed one; C24 unquoted values are dropped, quoted ones with a braced quote cut.
* C26 an empty file is passed over; C27 tar links lead outside; C28 a failing `process` leaves its directory;
  C30 a failing parser gives an empty document.
* C31 aliases defined in equations stay in a class-level dictionary for ever.
* C32/C33/C44 texts containing the internal placeholder strings are corrupted.
* C34 ways to redefine built-in commands, and mixtures of definition kinds where the older wins.
* C35/C45 recursive definitions and unclosed groups keep the main loop busy for ever.
* C36/C37 lists of tokens are not merged; labels on plain groups and empty environments are lost.
* C38 conditionals on flags are never decided; C39 defaults ignored, commas and blanks in values; C40 boxes with a width, numbered
  boxes; C41 directory not restored after an exception; C42 a blank before an argument.
* C22 text beside `\makecell` is lost; C46 headings with a short title are not recognised, the level is taken from the letters
  as written; C47 starred citation commands are not recognised; C48 `\hyperref` without an optional argument raises.
* C49 a `\makecell` in a span, `\multirow` around `\multicolumn`, text beside a span; C50 nested cells are not put back.
* C51 a required argument without braces is not found; an argument of a `\def` with braces two deep is read as `{`.
* C52 `\[ … \]` and `\( … \)` with unbalanced braces lose their text; `\$` ends an inline formula.
* C53 `$\sbox\b{\usebox\b}\usebox\b$` and `$\array \arraycolsep \endarray .$` never end.
* C54 `\includepdf[pages=1-3,scale=2]{f}` has the pages `1-3,`; `\includegraphics[page = 2]{f}` has no page.
* C55 `\begin{minipage}[t][3cm]{5cm}` leaves arguments in the text; `\begin{quote}[We] agree` loses `[We]`; `\newtheorem*` numbers;
  `\newtheorem{mt}{Main Theorem}` is no theorem; `\beginsupplement … \endbeginsupplement` raises.
* C56 `\item[Title]` without a body is lost; `\item[{a]b}] c` has the title `{a`.
* C57 `\textbf` and blanks at the end of a text raise; `\\emph abc … \\{` swallows all; `\\twocolumnfoo`.
* C58 `\\it a \\itshape b` leaves `shape b`; colour models as character sets; `\\bf{` raises; `\\bf}` swallows what follows the group.
* C59 the indentation of the first line of code is lost; `[language={[LaTeX]TeX}]` is cut.
* C60 `\\and` in a group tears it; `\\author{` unclosed raises.
* C61 `\\let\\foo =\\bar` swallows the rest of the text; see the claim for more.
* C62 `\\pagebreak[4]`, `\\parskip 3pt plus 1pt`, `\\rule[1pt]{..}{..}` leave parts of the command in the text; see the claim for more.
* C63 `\ifpdf{A}\else B\fi` loses A; `\iff` in a branch leaves the conditional open; `\origin` in a branch loses text; see the claim for more.
* C64 `\def\a{\b}\def\b{\a}\a` never ends; definitions before `\documentclass` are lost; `\\alpha` uses `\alpha`; see the claim for more.
* C65 `\foo{bar` raises; `Hello {world}` is read as `Helloworld`; a label after a footnote belongs to the footnote; see the claim for more.
* C66: `\bysame` after an author written with a command raises `re.error` or corrupts the author; `@word{` anywhere in a `thebibliography` makes the BibTeX parser take it and all items are lost.
* C67: `\'{}` puts the accent on the brace and leaves the closing one; `\'\i` puts it on the backslash.
* C68: commands of the table that end in `{}` (`\sqrt{}`, `\c{}`) lose their braces and are not replaced; `\textbackslash{}alpha` becomes α, as a later pass reads the backslash again; `\int\!\int` never becomes a double integral since `\int` comes first.
* C69: `\titleformat{..}{..}{..}{..}{..}[code]` leaves `[code]` in the text; `\foreach \x in {1,2} {A {b} c}` leaves ` c}`; `\foreach \x in {1,2}{a} and \textbf{b}` loses the text behind the loop.
* C70: `\field{type}{Ph.D. thesis}` (written by biblatex for every thesis) makes the entry type `Ph.D. thesis`, and the entry is not read; authors without a given name, or with `un=0,` before the hash, are left out.
* C71: in `\begin{tabular}{cc}{\bf A} & B\end{tabular}` the group is taken for the column specification and lost from the cell; `\begin{tabularx}{4cm}[t]{lc}` has the column specification `4cm` and a first cell beginning `[t]{lc}`; `\tabular{cc} a \tabularnewline b \endtabular` is not found.
* C72: `\RequirePackage{fix-cm}` before `\documentclass` is lost; `\newcommand{\bd}{\begin{document}}` gives the stump `\newcommand{\bd}{` and what follows is lost; `\usepackage[a={[b]}]{x}` is not found; `\iffalse\usepackage{x}\fi` gives the package; `\newenvironment` is left out.
* C73: a Latin-1 file with its first accent after 10000 ASCII bytes is read with U+FFFD for it; a file that chardet takes for EUC-TW raises LookupError instead of falling back.
* C74: in `a \\% b \begin` the comment behind the line break is not seen (only one character before the percent sign is looked at).
* C75: with merge_proof_environments a numbered equation within a proof gets no number, and the equations behind it get other numbers than without merging.

`seeded/LOG.jsonl` records the wrong programs the theorems were tried against.
